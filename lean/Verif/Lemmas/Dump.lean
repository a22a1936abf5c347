/-
Lemmas on the dump of `tokenize -d`.
-/
import Verif.Spec.Dump
import Verif.Lemmas.CommandLine
namespace Sudachi

theorem spaced_eq (l : List PStr) : joinOn 32 l = spaced l := joinOn_eq 32 l

theorem spaced_cons (s t : PStr) (ts : List PStr) : spaced (s :: t :: ts) = s ++ [32] ++ spaced (t :: ts) := by
  rw [← spaced_eq, ← spaced_eq]
  simp [joinOn]

theorem spaced_one (s : PStr) : spaced [s] = s := by rw [← spaced_eq]; rfl

theorem dumpWord_iff {g : Grammar} {lex : Lex} {n : NodeData} {surface pos : PStr} :
    dumpWord g lex n = .ok (surface, pos) ↔ WordShown g lex n surface pos := by
  have e1 : lit "(null)" = nullSurface := by decide
  have e2 : lit "BOS/EOS" = [66, 79, 83, 47, 69, 79, 83] := by decide
  unfold dumpWord WordShown
  rw [e1, e2]
  cases hd : n.defined with
  | false =>
    rw [if_neg (by simp)]
    constructor
    · intro h; cases h; exact .inl ⟨rfl, rfl, rfl⟩
    · rintro (⟨_, rfl, rfl⟩ | ⟨h, _⟩)
      · rfl
      · cases h
  | true =>
    rw [if_pos rfl]
    constructor
    · intro h
      obtain ⟨wi, hw, h⟩ := bind_ok h
      refine .inr ⟨rfl, wi, hw, ?_⟩
      split at h
      · rename_i hp
        obtain ⟨p, hpp, h⟩ := bind_ok h
        cases h
        exact ⟨rfl, .inr ⟨hp, p, hpp, commas_eq p⟩⟩
      · rename_i hp
        cases h
        exact ⟨rfl, .inl ⟨by omega, rfl⟩⟩
    · rintro (⟨h, _⟩ | ⟨_, wi, hw, rfl, h⟩)
      · cases h
      · rw [hw]
        rcases h with ⟨hp, rfl⟩ | ⟨hp, p, hpp, rfl⟩
        · show (if wi.posId ≥ 0 then _ else _) = _
          rw [if_neg (by omega)]
          rfl
        · show (if wi.posId ≥ 0 then _ else _) = _
          rw [if_pos hp, hpp, ← commas_eq]
          rfl

theorem dumpCosts_iff {conn : Conn} {n : NodeData} : ∀ {prevs : List LNode} {texts : List PStr}, dumpCosts conn n prevs = .ok texts ↔
    ∃ costs, Each (fun l c => conn n.leftId l.data.rightId = .ok c) prevs costs ∧ texts = costs.map dec
  | [], texts => by
    constructor
    · intro h; cases h; exact ⟨[], .nil, rfl⟩
    · rintro ⟨costs, h, rfl⟩; cases h; rfl
  | l :: ls, texts => by
    unfold dumpCosts
    constructor
    · intro h
      obtain ⟨c, hc, h⟩ := bind_ok h
      obtain ⟨rest, hr, h⟩ := bind_ok h
      cases h
      obtain ⟨costs, h1, rfl⟩ := dumpCosts_iff.mp hr
      exact ⟨c :: costs, .cons hc h1, by rw [List.map_cons, intStr_eq]; rfl⟩
    · rintro ⟨costs, h, rfl⟩
      cases h with
      | cons hc hr =>
        rename_i c costs
        rw [hc]
        show (dumpCosts conn n ls >>= _) = _
        rw [dumpCosts_iff.mpr ⟨costs, hr, rfl⟩, List.map_cons, intStr_eq]
        rfl

theorem dumpNode_iff {conn : Conn} {g : Grammar} {lex : Lex} {L : Lattice} {k : Nat} {n : NodeData} {line : PStr} :
    dumpNode conn g lex L k n = .ok line ↔ NodeLine conn g lex L k n line := by
  have e1 : lit ": " = [58, 32] := by decide
  have e2 : lit "(" = [40] := by decide
  have e3 : lit ")" = [41] := by decide
  have text : ∀ (surface pos costs : PStr),
      intStr k ++ [58] ++ [32] ++ intStr n.begin_ ++ [32] ++ intStr n.end_ ++ [32] ++ surface ++ [40] ++ intStr n.wordId ++ [41] ++
        [32] ++ pos ++ [32] ++ intStr n.leftId ++ [32] ++ intStr n.rightId ++ [32] ++ intStr n.cost ++ [58] ++ [32] ++ costs =
      dec k ++ lit ": " ++ spaced [dec n.begin_, dec n.end_, surface ++ lit "(" ++ dec n.wordId ++ lit ")", pos, dec n.leftId,
        dec n.rightId, dec n.cost] ++ lit ": " ++ costs := by
    intro surface pos costs
    simp only [spaced_cons, spaced_one, e1, e2, e3, intStr_eq, dec, List.append_assoc, List.cons_append, List.nil_append]
  unfold dumpNode NodeLine
  constructor
  · intro h
    obtain ⟨⟨surface, pos⟩, hw, h⟩ := bind_ok h
    obtain ⟨prevs, hp, h⟩ := bind_ok h
    obtain ⟨texts, hc, h⟩ := bind_ok h
    obtain ⟨costs, hc', rfl⟩ := dumpCosts_iff.mp hc
    refine ⟨surface, pos, prevs, costs, dumpWord_iff.mp hw, ?_, hc', ?_⟩
    · unfold pyGet at hp
      split at hp
      · rename_i h'; cases hp; exact h'
      · cases hp
    · rw [← text, ← spaced_eq (costs.map dec)]
      exact (Except.ok.inj h).symm
  · rintro ⟨surface, pos, prevs, costs, hw, hp, hc, rfl⟩
    rw [dumpWord_iff.mpr hw]
    show (pyGet L.endLists n.begin_ >>= _) = _
    have : pyGet L.endLists n.begin_ = .ok prevs := by unfold pyGet; rw [hp]
    rw [this]
    show (dumpCosts conn n prevs >>= _) = _
    rw [dumpCosts_iff.mpr ⟨costs, hc, rfl⟩, ← text, ← spaced_eq (costs.map dec)]
    rfl

theorem dumpNodes_lines {conn : Conn} {g : Grammar} {lex : Lex} {L : Lattice} : ∀ {ns : List LNode} {k : Nat} {out : List PStr},
    dumpNodes conn g lex L k ns = (out, .ok ()) → out.length = ns.length ∧
      ∀ (i : Nat) n line, ns[i]? = some n → out[i]? = some line → NodeLine conn g lex L (k + i + 1) n.data line
  | [], k, out, h => by
    cases h
    exact ⟨rfl, fun i n line h => by cases h⟩
  | n :: ns, k, out, h => by
    unfold dumpNodes at h
    cases hn : dumpNode conn g lex L (k + 1) n.data with
    | error e => rw [hn] at h; cases h
    | ok line =>
      rw [hn] at h
      cases h' : dumpNodes conn g lex L (k + 1) ns with
      | mk rest r =>
        rw [h'] at h
        cases h
        obtain ⟨h1, h2⟩ := dumpNodes_lines h'
        refine ⟨by simp [h1], ?_⟩
        intro i m l hm hl
        cases i with
        | zero => cases hm; cases hl; exact dumpNode_iff.mp hn
        | succ i =>
          have := h2 i m l hm hl
          have e : k + 1 + i + 1 = k + (i + 1) + 1 := by omega
          rw [← e]
          exact this

theorem dumpNodes_total {conn : Conn} {g : Grammar} {lex : Lex} {L : Lattice} : ∀ {ns : List LNode} {k : Nat},
    (∀ n ∈ ns, ∀ k, ∃ line, NodeLine conn g lex L k n.data line) → ∃ out, dumpNodes conn g lex L k ns = (out, .ok ())
  | [], k, _ => ⟨[], rfl⟩
  | n :: ns, k, h => by
    obtain ⟨line, hl⟩ := h n (by simp) (k + 1)
    obtain ⟨out, ho⟩ := dumpNodes_total (ns := ns) (k := k + 1) (fun m hm => h m (by simp [hm]))
    unfold dumpNodes
    rw [dumpNode_iff.mpr hl, ho]
    exact ⟨_, rfl⟩

theorem dumpEnds_lines {conn : Conn} {g : Grammar} {lex : Lex} {L : Lattice} : ∀ {e k : Nat} {out : List PStr},
    dumpEnds conn g lex L e k = (out, .ok ()) → ∃ ns, EndsDown L e ns ∧ out.length = ns.length ∧
      ∀ (i : Nat) n line, ns[i]? = some n → out[i]? = some line → NodeLine conn g lex L (k + i + 1) n.data line
  | 0, k, out, h => by
    cases h
    exact ⟨[], rfl, rfl, fun i n line h => by cases h⟩
  | e + 1, k, out, h => by
    unfold dumpEnds at h
    cases hp : pyGet L.endLists e with
    | error x => rw [hp] at h; cases h
    | ok here =>
      rw [hp] at h
      dsimp only at h
      cases h1 : dumpNodes conn g lex L k here with
      | mk o1 r1 =>
        rw [h1] at h
        cases r1 with
        | error x => cases h
        | ok u =>
          dsimp only at h
          cases h2 : dumpEnds conn g lex L e (k + here.length) with
          | mk o2 r2 =>
            rw [h2] at h
            cases h
            obtain ⟨a1, a2⟩ := dumpNodes_lines h1
            obtain ⟨rest, b0, b1, b2⟩ := dumpEnds_lines h2
            refine ⟨here ++ rest, ⟨here, rest, ?_, b0, rfl⟩, by simp [a1, b1], ?_⟩
            · unfold pyGet at hp
              split at hp
              · rename_i h'; cases hp; exact h'
              · cases hp
            · intro i n line hn hl
              rcases Nat.lt_or_ge i here.length with hi | hi
              · rw [List.getElem?_append_left hi] at hn
                rw [List.getElem?_append_left (by omega)] at hl
                exact a2 i n line hn hl
              · rw [List.getElem?_append_right hi] at hn
                rw [List.getElem?_append_right (by omega), a1] at hl
                have := b2 _ n line hn hl
                have e : k + here.length + (i - here.length) + 1 = k + i + 1 := by omega
                rw [← e]
                exact this

theorem dumpEnds_total {conn : Conn} {g : Grammar} {lex : Lex} {L : Lattice} : ∀ {e k : Nat}, e ≤ L.endLists.length →
    (∀ i ns, i < e → L.endLists[i]? = some ns → ∀ n ∈ ns, ∀ k, ∃ line, NodeLine conn g lex L k n.data line) →
    ∃ out, dumpEnds conn g lex L e k = (out, .ok ())
  | 0, k, _, _ => ⟨[], rfl⟩
  | e + 1, k, hlen, h => by
    have he := List.getElem?_eq_getElem (l := L.endLists) (i := e) (by omega)
    have hp : pyGet L.endLists e = .ok L.endLists[e] := by unfold pyGet; rw [he]
    obtain ⟨o1, h1⟩ := dumpNodes_total (k := k) (h e _ (by omega) he)
    obtain ⟨o2, h2⟩ := dumpEnds_total (k := k + L.endLists[e].length) (by omega : e ≤ L.endLists.length) (fun i ns hi => h i ns (by omega))
    unfold dumpEnds
    rw [hp]
    dsimp only
    rw [h1, h2]
    exact ⟨_, rfl⟩

theorem dump_lines {conn : Conn} {g : Grammar} {lex : Lex} {L : Lattice} {out : List PStr} (h : L.dump conn g lex = (out, .ok ())) :
    LatticeLines conn g lex L out := by
  unfold Lattice.dump at h
  cases he : L.eos with
  | none => rw [he] at h; cases h
  | some eos =>
    rw [he] at h
    dsimp only at h
    cases h1 : dumpNodes conn g lex L 0 [eos] with
    | mk o1 r1 =>
      rw [h1] at h
      cases r1 with
      | error x => cases h
      | ok u =>
        dsimp only at h
        cases h2 : dumpEnds conn g lex L (L.size + 1) 1 with
        | mk o2 r2 =>
          rw [h2] at h
          cases h
          obtain ⟨a1, a2⟩ := dumpNodes_lines h1
          obtain ⟨nodes, b0, b1, b2⟩ := dumpEnds_lines h2
          refine ⟨eos, nodes, he, b0, by simp [a1, b1]; omega, ?_⟩
          have hlen : o1.length = 1 := a1
          intro i n line hn hl
          cases i with
          | zero =>
            rw [List.getElem?_append_left (by omega)] at hl
            exact a2 0 n line hn hl
          | succ i =>
            rw [List.getElem?_append_right (by omega), hlen] at hl
            have := b2 i n line hn hl
            rw [Nat.add_comm 1 i] at this
            exact this

theorem dump_total {conn : Conn} {g : Grammar} {lex : Lex} {L : Lattice} {eos : LNode} (he : L.eos = some eos)
    (h0 : ∀ k, ∃ line, NodeLine conn g lex L k eos.data line) (hlen : L.size < L.endLists.length)
    (h : ∀ i ns, i ≤ L.size → L.endLists[i]? = some ns → ∀ n ∈ ns, ∀ k, ∃ line, NodeLine conn g lex L k n.data line) :
    ∃ out, L.dump conn g lex = (out, .ok ()) := by
  obtain ⟨o1, h1⟩ := dumpNodes_total (k := 0) (ns := [eos]) (L := L) (fun n hn => by rw [List.mem_singleton.mp hn]; exact h0)
  obtain ⟨o2, h2⟩ := dumpEnds_total (k := 1) (e := L.size + 1) hlen (fun i ns hi => h i ns (by omega))
  unfold Lattice.dump
  rw [he]
  dsimp only
  rw [h1, h2]
  exact ⟨_, rfl⟩

theorem nodeStr_iff {lex : Lex} {n : NodeData} {s : PStr} : nodeStr lex n = .ok s ↔ ∃ surface, SurfaceShown lex n surface ∧
    s = spaced [dec n.begin_, dec n.end_, surface ++ lit "(" ++ dec n.wordId ++ lit ")", dec n.leftId, dec n.rightId, dec n.cost] := by
  have e2 : lit "(" = [40] := by decide
  have e3 : lit ")" = [41] := by decide
  have e4 : lit "(None)" = [40, 78, 111, 110, 101, 41] := by decide
  have text : ∀ surface, intStr n.begin_ ++ [32] ++ intStr n.end_ ++ [32] ++ surface ++ [40] ++ intStr n.wordId ++ [41] ++ [32] ++
      intStr n.leftId ++ [32] ++ intStr n.rightId ++ [32] ++ intStr n.cost =
      spaced [dec n.begin_, dec n.end_, surface ++ lit "(" ++ dec n.wordId ++ lit ")", dec n.leftId, dec n.rightId, dec n.cost] := by
    intro surface
    simp only [spaced_cons, spaced_one, e2, e3, intStr_eq, dec, List.append_assoc, List.cons_append, List.nil_append]
  have hc : (n.wordId ≥ 0 || n.extra.isSome) = true ↔ 0 ≤ n.wordId ∨ n.extra ≠ none := by
    cases n.extra <;> simp
  unfold nodeStr SurfaceShown
  rw [e4]
  constructor
  · intro h
    obtain ⟨surface, hs, h⟩ := bind_ok h
    refine ⟨surface, ?_, by rw [← text]; exact (Except.ok.inj h).symm⟩
    unfold nodeSurface at hs
    split at hs
    · rename_i hh
      cases hw : nodeWordInfo lex n with
      | error e => rw [hw] at hs; cases hs
      | ok wi =>
        rw [hw] at hs
        cases hs
        exact .inl ⟨hc.mp hh, wi, rfl, rfl⟩
    · rename_i hh
      cases hs
      rw [hc] at hh
      refine .inr ⟨by omega, ?_, rfl⟩
      cases hx : n.extra with
      | none => rfl
      | some w => exact absurd (.inr (by rw [hx]; simp)) hh
  · rintro ⟨surface, hs, rfl⟩
    rw [← text]
    rcases hs with ⟨h1, wi, hw, rfl⟩ | ⟨h1, h2, rfl⟩
    · unfold nodeSurface
      rw [if_pos (hc.mpr h1), hw]
      rfl
    · unfold nodeSurface
      rw [if_neg]
      · rfl
      · rw [hc, h2]
        simp
        omega

theorem dumpPath_lines {lex : Lex} : ∀ {path : List NodeData} {k : Nat} {out : List PStr}, dumpPath lex k path = (out, .ok ()) →
    out.length = path.length ∧ ∀ (i : Nat) n line, path[i]? = some n → out[i]? = some line → ∃ surface, SurfaceShown lex n surface ∧
    line = dec ((k + i : Nat) : Int) ++ lit ": " ++ spaced [dec n.begin_, dec n.end_, surface ++ lit "(" ++ dec n.wordId ++ lit ")",
      dec n.leftId, dec n.rightId, dec n.cost] ++ [0xFFFF]
  | [], k, out, h => by
    cases h
    exact ⟨rfl, fun i n line h => by cases h⟩
  | n :: path, k, out, h => by
    unfold dumpPath at h
    cases hn : nodeStr lex n with
    | error e => rw [hn] at h; cases h
    | ok s =>
      rw [hn] at h
      cases h' : dumpPath lex (k + 1) path with
      | mk rest r =>
        rw [h'] at h
        cases h
        obtain ⟨h1, h2⟩ := dumpPath_lines h'
        refine ⟨by simp [h1], ?_⟩
        intro i m l hm hl
        cases i with
        | zero =>
          cases hm; cases hl
          obtain ⟨surface, h3, rfl⟩ := nodeStr_iff.mp hn
          have e1 : lit ": " = [58, 32] := by decide
          exact ⟨surface, h3, by rw [e1, intStr_eq]; rfl⟩
        | succ i =>
          have := h2 i m l hm hl
          have e : k + 1 + i = k + (i + 1) := by omega
          rw [← e]
          exact this

theorem dumpPath_total {lex : Lex} : ∀ {path : List NodeData} {k : Nat}, (∀ n ∈ path, ∃ wi, nodeWordInfo lex n = .ok wi) →
    ∃ out, dumpPath lex k path = (out, .ok ())
  | [], k, _ => ⟨[], rfl⟩
  | n :: path, k, h => by
    obtain ⟨out, ho⟩ := dumpPath_total (path := path) (k := k + 1) (fun m hm => h m (by simp [hm]))
    obtain ⟨wi, hw⟩ := h n (by simp)
    have : ∃ s, nodeStr lex n = .ok s := by
      by_cases hc : 0 ≤ n.wordId ∨ n.extra ≠ none
      · exact ⟨_, nodeStr_iff.mpr ⟨_, .inl ⟨hc, wi, hw, rfl⟩, rfl⟩⟩
      · refine ⟨_, nodeStr_iff.mpr ⟨_, .inr ⟨by omega, ?_, rfl⟩, rfl⟩⟩
        cases hx : n.extra with
        | none => rfl
        | some w => exact absurd (.inr (by rw [hx]; simp)) hc
    obtain ⟨s, hs⟩ := this
    unfold dumpPath
    rw [hs]
    dsimp only
    rw [ho]
    exact ⟨_, rfl⟩

end Sudachi
