/-
The lines printed by the command can be written in UTF-8.
-/
import Verif.Lemmas.Encodable2
import Verif.Props.Dump
namespace Sudachi
open Sources

theorem lit_encodable (s : String) : Encodable (lit s) := by
  intro c hc
  unfold lit at hc
  obtain ⟨x, _, rfl⟩ := List.mem_map.mp hc
  have : x.toNat < 0xD800 ∨ (0xDFFF < x.toNat ∧ x.toNat < 0x110000) := x.valid
  exact encodable_iff.mpr (by omega)

theorem Encodable.intercalate {sep : PStr} (hs : Encodable sep) : ∀ {l : List PStr}, (∀ s ∈ l, Encodable s) → Encodable (List.intercalate sep l)
  | [], _ => .nil
  | [a], h => by
    have : List.intercalate sep [a] = a := by simp [List.intercalate]
    rw [this]; exact h a (by simp)
  | a :: b :: l, h => by
    have : List.intercalate sep (a :: b :: l) = a ++ sep ++ List.intercalate sep (b :: l) := by simp [List.intercalate]
    rw [this]
    exact ((h a (by simp)).append hs).append (Encodable.intercalate hs (fun s hs => h s (by simp [hs])))

theorem posString_encodable {g : Grammar} (hg : g.Encodable) {id : Int} {pos : List PStr} (h : g.posString id = .ok pos) : Encodable (commas pos) := by
  refine Encodable.intercalate (lit_encodable _) (hg pos ?_)
  unfold Grammar.posString at h
  split at h
  · split at h
    · cases h
    · exact pyGet_mem h
  · exact pyGet_mem h

variable {T : Tokenizer}

theorem tokenize_encodable (hp : T.PluginsOk) (hlex : T.lex.Ok) (hE : T.lex.Encodable) {L L' : Lattice} (hL : T.CleanHistory L) {text : PStr}
    {mode : Option Mode} {ml : MorphemeList} (h : T.tokenize L text mode = (L', .ok ml)) :
    (∀ n ∈ ml.path, NodeEncodable n) ∧ ∀ t, ml.input = some t → t.original = text := by
  rcases tokenize_run hp h with ⟨_, _, rfl⟩ | ⟨_, hr⟩
  · exact ⟨fun n hn => (by cases hn), fun t ht => (by cases ht)⟩
  constructor
  · obtain ⟨bd, t, L1, path0, path, path', hti, hv, ho, hne', B, hb, hp0, hrw, hcl, hsp, rfl⟩ := hr
    intro n hn
    have hclean := hL.clean hp hlex
    have hins := bestPath_cands hlex B hclean hb hp0
    have hall := rewritePath_encodable hE (buildLattice_endsRight hclean hb) (fun d hd => (hins.2 d hd).encodable B) hrw
      ((hL.history.sane hp hlex).bestPath B hlex hb hp0).1 (fun d hd => (hins.1 d hd).encodable B)
    rcases splitPath_mem hsp hn with hm | ⟨_, hm, _⟩
    · exact hall n hm
    · intro info hi; rw [hm] at hi; cases hi
  · obtain ⟨t, path, _, _, ho, hi, _⟩ := run_spec hlex (hL.history.sane hp hlex) hr
    intro t' ht'
    rw [hi] at ht'
    cases ht'
    exact ho

theorem LineOf.encodable {g : Grammar} (hg : g.Encodable) (hE : T.lex.Encodable) {ml : MorphemeList} (hn : ∀ n ∈ ml.path, NodeEncodable n)
    (ho : ∀ t, ml.input = some t → Encodable t.original) {all : Bool} {i : Nat} {line : PStr} (h : LineOf g T.lex ml all i line) :
    Encodable line := by
  have hs : ∀ {s}, ml.getSurface i = .ok s → Encodable s := by
    intro s h
    unfold MorphemeList.getSurface at h
    obtain ⟨b, _, h⟩ := bind_ok h
    obtain ⟨e, _, h⟩ := bind_ok h
    obtain ⟨t, ht, h⟩ := bind_ok h
    cases h
    refine Encodable.slice (ho t ?_) _ _
    unfold MorphemeList.inputText at ht
    split at ht
    · rename_i h'; cases ht; exact h'
    · cases ht
  have hw : ∀ {wi}, ml.getWordInfo T.lex i = .ok wi → wi.Encodable := by
    intro wi h
    unfold MorphemeList.getWordInfo at h
    obtain ⟨d, hd, h⟩ := bind_ok h
    exact (hn d (pyGet_mem hd)).info hE h
  unfold LineOf at h
  split at h
  · obtain ⟨surface, wi, pos, d, oov, h1, h2, h3, h4, h5, rfl⟩ := h
    have hwi := hw h2
    refine Encodable.intercalate (lit_encodable _) fun s hs' => ?_
    rcases List.mem_append.mp hs' with h | h
    · simp only [List.mem_cons, List.not_mem_nil, or_false] at h
      rcases h with rfl | rfl | rfl | rfl | rfl | rfl | rfl
      · exact hs h1
      · exact posString_encodable hg h3
      · exact hwi.normalized
      · exact hwi.form
      · exact hwi.reading
      · exact lit_encodable _
      · refine ((lit_encodable _).append (Encodable.intercalate (lit_encodable _) fun s hs => ?_)).append (lit_encodable _)
        obtain ⟨n, _, rfl⟩ := List.mem_map.mp hs
        exact lit_encodable _
    · split at h
      · rw [List.mem_singleton.mp h]; exact lit_encodable _
      · cases h
  · obtain ⟨surface, wi, pos, h1, h2, h3, rfl⟩ := h
    refine Encodable.intercalate (lit_encodable _) fun s hs' => ?_
    simp only [List.mem_cons, List.not_mem_nil, or_false] at hs'
    rcases hs' with rfl | rfl | rfl
    · exact hs h1
    · exact posString_encodable hg h3
    · exact (hw h2).normalized

theorem Chomped.encodable {line body : PStr} (h : Chomped line body) (hl : Encodable line) : Encodable body := by
  obtain ⟨n, rfl, _⟩ := h
  exact fun c hc => hl c (by simp [hc])

theorem BlockOf.encodable (hp : T.PluginsOk) (hlex : T.lex.Ok) (hE : T.lex.Encodable) {g : Grammar} (hg : g.Encodable) {mode : Mode}
    {all : Bool} {input : PStr} {block : List PStr} (hi : Encodable input) (h : BlockOf T g mode all input block) :
    ∀ line ∈ block, Encodable line := by
  obtain ⟨body, ml, out, h1, h2, rfl, h4, h5⟩ := h
  intro line hl
  rcases List.mem_append.mp hl with hl | hl
  · obtain ⟨i, hi'⟩ := List.getElem?_of_mem hl
    cases ht : T.tokenize Lattice.init body (some mode) with
    | mk L' r =>
      rw [ht] at h2
      cases h2
      obtain ⟨k1, k2⟩ := tokenize_encodable hp hlex hE .fresh ht
      exact (h5 i line hi').encodable hg hE k1 (fun t ht => by rw [k2 t ht]; exact h1.encodable hi)
  · rw [List.mem_singleton.mp hl]; exact lit_encodable _

theorem BlocksOf.encodable (hp : T.PluginsOk) (hlex : T.lex.Ok) (hE : T.lex.Encodable) {g : Grammar} (hg : g.Encodable) {mode : Mode}
    {all : Bool} : ∀ {input : List PStr} {blocks : List (List PStr)}, (∀ l ∈ input, Encodable l) → BlocksOf T g mode all input blocks →
      ∀ b ∈ blocks, ∀ line ∈ b, Encodable line
  | [], [], _, _, _, hb => by cases hb
  | [], _ :: _, _, h, _, _ => h.elim
  | _ :: _, [], _, h, _, _ => h.elim
  | l :: ls, b :: bs, hi, h, x, hx => by
    rcases List.mem_cons.mp hx with rfl | hx
    · exact h.1.encodable hp hlex hE hg (hi l (by simp))
    · exact BlocksOf.encodable hp hlex hE hg (fun l hl => hi l (by simp [hl])) h.2 x hx

theorem NodeLine.encodable {conn : Conn} {g : Grammar} (hg : g.Encodable) {lex : Lex} (hE : lex.Encodable) {L : Lattice} {k : Nat}
    {n : NodeData} (hn : NodeEncodable n) {line : PStr} (h : NodeLine conn g lex L k n line) : Encodable line := by
  obtain ⟨surface, pos, prevs, costs, hw, _, _, rfl⟩ := h
  have key : Encodable surface ∧ Encodable pos := by
    rcases hw with ⟨_, rfl, rfl⟩ | ⟨_, wi, h1, rfl, ⟨_, rfl⟩ | ⟨_, p, h2, rfl⟩⟩
    · exact ⟨lit_encodable _, lit_encodable _⟩
    · exact ⟨(hn.info hE h1).surface, lit_encodable _⟩
    · exact ⟨(hn.info hE h1).surface, posString_encodable hg h2⟩
  refine ((((lit_encodable _).append (lit_encodable _)).append (Encodable.intercalate (lit_encodable _) fun s hs => ?_)).append
    (lit_encodable _)).append (Encodable.intercalate (lit_encodable _) fun s hs => ?_)
  · simp only [List.mem_cons, List.not_mem_nil, or_false] at hs
    rcases hs with rfl | rfl | rfl | rfl | rfl | rfl | rfl
    · exact lit_encodable _
    · exact lit_encodable _
    · exact ((key.1.append (lit_encodable _)).append (lit_encodable _)).append (lit_encodable _)
    · exact key.2
    · exact lit_encodable _
    · exact lit_encodable _
    · exact lit_encodable _
  · obtain ⟨c, _, rfl⟩ := List.mem_map.mp hs
    exact lit_encodable _

theorem PathLines.encodable {lex : Lex} (hE : lex.Encodable) {path : List NodeData} (hn : ∀ n ∈ path, NodeEncodable n) {lines : List PStr}
    (h : PathLines lex path lines) : ∀ line ∈ lines, Encodable line := by
  obtain ⟨h1, h2⟩ := h
  intro line hl
  obtain ⟨i, hi⟩ := List.getElem?_of_mem hl
  have hlt : i < path.length := by rw [← h1]; exact (List.getElem?_eq_some_iff.mp hi).1
  obtain ⟨surface, hs, rfl⟩ := h2 i _ line (List.getElem?_eq_getElem hlt) hi
  have key : Encodable surface := by
    rcases hs with ⟨_, wi, hw, rfl⟩ | ⟨_, _, rfl⟩
    · exact ((hn _ (List.getElem_mem hlt)).info hE hw).surface
    · exact lit_encodable _
  refine (((lit_encodable _).append (lit_encodable _)).append (Encodable.intercalate (lit_encodable _) fun s hs => ?_)).append
    (.cons (by decide) .nil)
  simp only [List.mem_cons, List.not_mem_nil, or_false] at hs
  rcases hs with rfl | rfl | rfl | rfl | rfl | rfl
  · exact lit_encodable _
  · exact lit_encodable _
  · exact ((key.append (lit_encodable _)).append (lit_encodable _)).append (lit_encodable _)
  · exact lit_encodable _
  · exact lit_encodable _
  · exact lit_encodable _

theorem endsDown_mem {L : Lattice} : ∀ {k : Nat} {ns : List LNode}, EndsDown L k ns → ∀ x ∈ ns, ∃ (e : Nat) (here : List LNode), L.endLists[e]? = some here ∧ x ∈ here
  | 0, ns, h, x, hx => by
    have : ns = [] := h
    rw [this] at hx; cases hx
  | k + 1, ns, h, x, hx => by
    obtain ⟨here, rest, h1, h2, rfl⟩ := h
    rcases List.mem_append.mp hx with hx | hx
    · exact ⟨k, here, h1, hx⟩
    · exact endsDown_mem h2 x hx

theorem DumpOf.encodable (hp : T.PluginsOk) (hlex : T.lex.Ok) (hE : T.lex.Encodable) {g : Grammar} (hg : g.Encodable) {mode : Mode}
    {text : PStr} {dump : List PStr} (h : DumpOf T g mode text dump) : ∀ line ∈ dump, Encodable line := by
  rcases h with ⟨_, rfl⟩ | ⟨hne, t, L, path, ml, lattice, before, after, ht, hb, hp0, hml, hl, hbe, haf, rfl⟩
  · intro line hl; cases hl
  obtain ⟨bd, _, _, _, B, _⟩ := buildInput_built hp ht
  have F := lattice_facts hlex B init_clean hb
  have hbos := (init_clean.sane T.conn T.lex).buildLattice B hlex hb
  have hins := bestPath_cands hlex B init_clean hb hp0
  have e1 : ∀ line ∈ lattice, Encodable line := by
    obtain ⟨eos, nodes, k1, k2, k3, k4⟩ := hl
    intro line hl
    obtain ⟨i, hi⟩ := List.getElem?_of_mem hl
    have hlt : i < (eos :: nodes).length := by rw [List.length_cons, ← k3]; exact (List.getElem?_eq_some_iff.mp hi).1
    refine (k4 i _ line (List.getElem?_eq_getElem hlt) hi).encodable hg hE ?_
    have blank : ∀ d : NodeData, d.extra = none → NodeEncodable d := fun d hd info hi => by rw [hd] at hi; cases hi
    rcases List.mem_cons.mp (List.getElem_mem hlt) with he | hm
    · rw [he]
      obtain ⟨x, h1, h2⟩ := F.eos
      rw [k1] at h1
      cases h1
      exact blank _ (by rw [h2]; rfl)
    · obtain ⟨e, here, h1, h2⟩ := endsDown_mem k2 _ hm
      rcases F.nodes e here h1 _ h2 with ⟨rfl, _, _⟩ | ⟨_, _, h3⟩
      · have := hbos.1.bos
        rw [h1] at this
        cases this
        rw [List.mem_singleton.mp h2]
        exact blank _ rfl
      · exact h3.encodable B
  have e2 := hbe.encodable hE (fun d hd => (hins.1 d hd).encodable B)
  have e3 : ∀ line ∈ after, Encodable line := by
    cases hto : T.tokenize Lattice.init text (some mode) with
    | mk L' r =>
      rw [hto] at hml
      cases hml
      exact haf.encodable hE (tokenize_encodable hp hlex hE .fresh hto).1
  have e0 : Encodable t.modified := by rw [B.modif]; exact List.all_eq_true.mp B.enc
  intro line hl
  have hor : line ∈ lattice ∨ line ∈ before ∨ line ∈ after ∨ line = t.modified ∨ ∃ s, line = lit s := by
    simp only [List.mem_append, List.mem_cons, List.not_mem_nil, or_false] at hl
    grind
  rcases hor with h | h | h | rfl | ⟨s, rfl⟩
  · exact e1 _ h
  · exact e2 _ h
  · exact e3 _ h
  · exact e0
  · exact lit_encodable _

end Sudachi
