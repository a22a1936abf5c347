/-
What is read from dictionaries can be written in UTF-8.
-/
import Verif.Spec.Encodable
import Verif.Lemmas.Costs
namespace Sudachi

theorem Encodable.nil : Encodable [] := fun _ h => by cases h

theorem Encodable.cons {c : Nat} {s : PStr} (h : encodable c = true) (hs : Encodable s) : Encodable (c :: s) := by
  intro x hx
  rcases List.mem_cons.mp hx with rfl | hx
  · exact h
  · exact hs x hx

theorem Encodable.append {a b : PStr} (ha : Encodable a) (hb : Encodable b) : Encodable (a ++ b) := by
  intro x hx
  rcases List.mem_append.mp hx with h | h
  · exact ha x h
  · exact hb x h

theorem Encodable.flatten {l : List PStr} (h : ∀ s ∈ l, Encodable s) : Encodable l.flatten := by
  intro x hx
  obtain ⟨s, hs, hx⟩ := List.mem_flatten.mp hx
  exact h s hs x hx

theorem Encodable.slice {s : PStr} (h : Encodable s) (a b : Nat) : Encodable (pySlice s a b) :=
  fun x hx => h x (List.mem_of_mem_take (List.mem_of_mem_drop hx))

theorem Octets.slice {s : Bytes} (h : Octets s) (a b : Nat) : Octets (pySlice s a b) :=
  fun x hx => h x (List.mem_of_mem_take (List.mem_of_mem_drop hx))

theorem unitsLe_lt : ∀ {b : Bytes} {us : List Nat}, Octets b → unitsLe b = .ok us → ∀ u ∈ us, u < 65536
  | [], us, _, h => by cases h; intro u hu; cases hu
  | [_], us, _, h => by cases h
  | a :: b :: r, us, ho, h => by
    unfold unitsLe at h
    obtain ⟨us', h1, h⟩ := bind_ok h
    cases h
    have ih := unitsLe_lt (fun x hx => ho x (by simp [hx])) h1
    have ha := ho a (by simp)
    have hb := ho b (by simp)
    intro u hu
    rcases List.mem_cons.mp hu with rfl | hu
    · omega
    · exact ih u hu

theorem unitsBe_lt : ∀ {b : Bytes} {us : List Nat}, Octets b → unitsBe b = .ok us → ∀ u ∈ us, u < 65536
  | [], us, _, h => by cases h; intro u hu; cases hu
  | [_], us, _, h => by cases h
  | a :: b :: r, us, ho, h => by
    unfold unitsBe at h
    obtain ⟨us', h1, h⟩ := bind_ok h
    cases h
    have ih := unitsBe_lt (fun x hx => ho x (by simp [hx])) h1
    have ha := ho a (by simp)
    have hb := ho b (by simp)
    intro u hu
    rcases List.mem_cons.mp hu with rfl | hu
    · omega
    · exact ih u hu

theorem decodeUnits_encodable (n : Nat) : ∀ {us : List Nat} {s : PStr}, us.length ≤ n → (∀ u ∈ us, u < 65536) →
    decodeUnits us = .ok s → Encodable s := by
  induction n with
  | zero =>
    intro us s hn _ h
    have : us = [] := List.length_eq_zero_iff.mp (by omega)
    subst this
    cases h
    exact .nil
  | succ n ih =>
    intro us s hn hu h
    cases us with
    | nil => cases h; exact .nil
    | cons u us =>
      have hu0 := hu u (by simp)
      unfold decodeUnits at h
      split at h
      · rename_i hc
        obtain ⟨r, h1, h⟩ := bind_ok h
        cases h
        exact .cons (encodable_iff.mpr ⟨by omega, by omega⟩) (ih (by simp at hn; omega) (fun x hx => hu x (by simp [hx])) h1)
      · split at h
        · cases h
        · rename_i v vs
          split at h
          · rename_i h' hc
            obtain ⟨r, h1, h⟩ := bind_ok h
            cases h
            exact .cons (encodable_iff.mpr ⟨by omega, by omega⟩) (ih (by simp at hn; omega) (fun x hx => hu x (by simp [hx])) h1)
          · cases h

theorem decodeUtf16Le_encodable {b : Bytes} {s : PStr} (hb : Octets b) (h : decodeUtf16Le b = .ok s) : Encodable s := by
  unfold decodeUtf16Le at h
  obtain ⟨us, h1, h⟩ := bind_ok h
  exact decodeUnits_encodable _ (Nat.le_refl _) (unitsLe_lt hb h1) h

theorem decodeUtf16_encodable {b : Bytes} {s : PStr} (hb : Octets b) (h : decodeUtf16 b = .ok s) : Encodable s := by
  unfold decodeUtf16 at h
  split at h
  · exact decodeUtf16Le_encodable (fun x hx => hb x (by simp [hx])) h
  · obtain ⟨us, h1, h⟩ := bind_ok h
    exact decodeUnits_encodable _ (Nat.le_refl _) (unitsBe_lt (fun x hx => hb x (by simp [hx])) h1) h
  · exact decodeUtf16Le_encodable hb h

theorem decodeUtf8_encodable (n : Nat) : ∀ {b : Bytes} {s : PStr}, b.length ≤ n → decodeUtf8 b = .ok s → Encodable s := by
  induction n with
  | zero =>
    intro b s hn h
    have : b = [] := List.length_eq_zero_iff.mp (by omega)
    subst this
    unfold decodeUtf8 at h
    cases h
    exact .nil
  | succ n ih =>
    intro b s hn h
    cases b with
    | nil => unfold decodeUtf8 at h; cases h; exact .nil
    | cons a r =>
      unfold decodeUtf8 at h
      have hl : r.length ≤ n := by simp at hn; omega
      split at h
      · obtain ⟨s', h1, h⟩ := bind_ok h
        cases h
        exact .cons (encodable_iff.mpr ⟨by omega, by omega⟩) (ih hl h1)
      · split at h
        · split at h
          · split at h
            · rename_i b r' hc
              obtain ⟨s', h1, h⟩ := bind_ok h
              cases h
              simp only [isCont, Bool.and_eq_true, decide_eq_true_eq] at hc
              exact .cons (encodable_iff.mpr ⟨by omega, by omega⟩) (ih (by simp at hl; omega) h1)
            · cases h
          · cases h
        · split at h
          · split at h
            · dsimp only at h
              split at h
              · rename_i b c r' hc
                obtain ⟨s', h1, h⟩ := bind_ok h
                cases h
                simp only [isCont, Bool.and_eq_true, decide_eq_true_eq, Bool.not_eq_true', Bool.and_eq_false_iff, decide_eq_false_iff_not] at hc
                exact .cons (encodable_iff.mpr ⟨by omega, by omega⟩) (ih (by simp at hl; omega) h1)
              · cases h
            · cases h
          · split at h
            · split at h
              · dsimp only at h
                split at h
                · rename_i b c d r' hc
                  obtain ⟨s', h1, h⟩ := bind_ok h
                  cases h
                  simp only [isCont, Bool.and_eq_true, decide_eq_true_eq] at hc
                  exact .cons (encodable_iff.mpr ⟨by omega, by omega⟩) (ih (by simp at hl; omega) h1)
                · cases h
              · cases h
            · cases h

theorem getString_encodable {b : Bytes} (hb : Octets b) {i j : Nat} {s : PStr} (h : getString b i = .ok (s, j)) : Encodable s := by
  unfold getString at h
  obtain ⟨x, _, h⟩ := bind_ok h
  obtain ⟨s', h1, h⟩ := bind_ok h
  cases h
  exact decodeUtf16Le_encodable (hb.slice _ _) h1

theorem getStoredInfo_encodable {b : Bytes} (hb : Octets b) {syn : Bool} {i : Nat} {w : WordInfo} (h : getStoredInfo b syn i = .ok w) :
    w.Encodable := by
  unfold getStoredInfo at h
  obtain ⟨i0, _, h⟩ := bind_ok h
  obtain ⟨⟨surface, i1⟩, h1, h⟩ := bind_ok h
  obtain ⟨⟨hwl, i2⟩, _, h⟩ := bind_ok h
  obtain ⟨⟨norm, i3⟩, h2, h⟩ := bind_ok h
  obtain ⟨⟨reading, i4⟩, h3, h⟩ := bind_ok h
  obtain ⟨⟨a, i5⟩, _, h⟩ := bind_ok h
  obtain ⟨⟨bb, i6⟩, _, h⟩ := bind_ok h
  obtain ⟨⟨ws, i7⟩, _, h⟩ := bind_ok h
  have e1 := getString_encodable hb h1
  have e2 := getString_encodable hb h2
  have e3 := getString_encodable hb h3
  have f2 : Encodable (if norm.isEmpty then surface else norm) := by
    split
    · exact e1
    · exact e2
  have f3 : Encodable (if reading.isEmpty then surface else reading) := by
    split
    · exact e1
    · exact e3
  dsimp only at h
  split at h
  · obtain ⟨⟨sy, i8⟩, _, h⟩ := bind_ok h
    cases h
    exact ⟨e1, f2, e1, f3⟩
  · cases h
    exact ⟨e1, f2, e1, f3⟩

theorem DALex.wordInfo_encodable {x : DALex} (hb : Octets x.bytes) : ∀ {depth w : Nat} {info : WordInfo}, x.wordInfo depth w = .ok info →
    info.Encodable
  | 0, _, _, h => by cases h
  | depth + 1, w, info, h => by
    unfold DALex.wordInfo at h
    obtain ⟨wi, h1, h⟩ := bind_ok h
    have e := getStoredInfo_encodable hb h1
    split at h
    · obtain ⟨wi', h2, h⟩ := bind_ok h
      cases h
      exact ⟨e.surface, e.normalized, (DALex.wordInfo_encodable hb h2).surface, e.reading⟩
    · cases h
      exact e

/-- All lexicons are on bytes. -/
def LexSet.Octets (s : LexSet) : Prop := ∀ x ∈ s.lexicons, Sudachi.Octets x.bytes

theorem pyGet_mem {α : Type} {l : List α} {i : Nat} {x : α} (h : pyGet l i = .ok x) : x ∈ l := by
  unfold pyGet at h
  split at h
  · rename_i h'; cases h; exact List.mem_of_getElem? h'
  · cases h

theorem pyGetI_mem {α : Type} {l : List α} {i : Int} {x : α} (h : pyGetI l i = .ok x) : x ∈ l := by
  unfold pyGetI at h
  split at h
  · split at h
    · cases h
    · exact pyGet_mem h
  · exact pyGet_mem h

theorem LexSet.encodable {s : LexSet} (h : s.Octets) (D : Darts) (depth : Nat) : (s.toLex D depth).Encodable := by
  intro w info hw
  have hw : s.wordInfo depth w = .ok info := hw
  unfold LexSet.wordInfo at hw
  obtain ⟨x, h1, hw⟩ := bind_ok hw
  obtain ⟨wi, h2, hw⟩ := bind_ok hw
  obtain ⟨p, _, hw⟩ := bind_ok hw
  obtain ⟨a, _, hw⟩ := bind_ok hw
  obtain ⟨b, _, hw⟩ := bind_ok hw
  obtain ⟨c, _, hw⟩ := bind_ok hw
  cases hw
  have e := DALex.wordInfo_encodable (h x (pyGetI_mem h1)) h2
  exact ⟨e.surface, e.normalized, e.form, e.reading⟩

theorem getPosStrings_encodable {b : Bytes} (hb : Octets b) : ∀ {n i j : Nat} {l : List PStr}, getPosStrings b n i = .ok (l, j) →
    ∀ s ∈ l, Encodable s
  | 0, _, _, _, h => by cases h; intro s hs; cases hs
  | n + 1, i, j, l, h => by
    unfold getPosStrings at h
    obtain ⟨⟨s, i1⟩, h1, h⟩ := bind_ok h
    obtain ⟨⟨ss, i2⟩, h2, h⟩ := bind_ok h
    cases h
    unfold getPosString at h1
    obtain ⟨x, _, h1⟩ := bind_ok h1
    obtain ⟨s', h3, h1⟩ := bind_ok h1
    cases h1
    intro y hy
    rcases List.mem_cons.mp hy with rfl | hy
    · exact decodeUtf16_encodable (hb.slice _ _) h3
    · exact getPosStrings_encodable hb h2 y hy

theorem getPosList_encodable {b : Bytes} (hb : Octets b) : ∀ {n i j : Nat} {l : List (List PStr)}, getPosList b n i = .ok (l, j) →
    ∀ p ∈ l, ∀ s ∈ p, Encodable s
  | 0, _, _, _, h => by cases h; intro s hs; cases hs
  | n + 1, i, j, l, h => by
    unfold getPosList at h
    obtain ⟨⟨s, i1⟩, h1, h⟩ := bind_ok h
    obtain ⟨⟨ss, i2⟩, h2, h⟩ := bind_ok h
    cases h
    intro y hy
    rcases List.mem_cons.mp hy with rfl | hy
    · exact getPosStrings_encodable hb h1
    · exact getPosList_encodable hb h2 y hy

theorem Grammar.read_encodable {b : Bytes} (hb : Octets b) {i : Nat} {g : Grammar} (h : Grammar.read b i = .ok g) : g.Encodable := by
  unfold Grammar.read at h
  obtain ⟨i0, _, h⟩ := bind_ok h
  dsimp only at h
  obtain ⟨⟨l, i2⟩, h1, h⟩ := bind_ok h
  dsimp only at h
  split at h
  · cases h
  · obtain ⟨cells, _, h⟩ := bind_ok h
    cases h
    exact getPosList_encodable hb h1

theorem DALex.read_bytes {b : Bytes} {i : Nat} {syn : Bool} {x : DALex} (h : DALex.read b i syn = .ok x) : x.bytes = b := by
  unfold DALex.read at h
  obtain ⟨_, _, h⟩ := bind_ok h
  obtain ⟨_, _, h⟩ := bind_ok h
  obtain ⟨_, _, h⟩ := bind_ok h
  dsimp only at h
  split at h
  · cases h
  · cases h; rfl

theorem readDictionary_encodable {b : Bytes} (hb : Octets b) {d : BinDict} (h : readDictionary b = .ok d) :
    Octets d.lexicon.bytes ∧ ∀ g, d.grammar = some g → g.Encodable := by
  unfold readDictionary at h
  split at h
  · cases h
  · obtain ⟨hd, _, h⟩ := bind_ok h
    split at h
    · cases h
    · split at h
      · obtain ⟨g, h1, h⟩ := bind_ok h
        obtain ⟨x, h2, h⟩ := bind_ok h
        cases h
        refine ⟨by rw [DALex.read_bytes h2]; exact hb, ?_⟩
        intro g' hg
        cases hg
        exact Grammar.read_encodable hb h1
      · obtain ⟨x, h2, h⟩ := bind_ok h
        cases h
        exact ⟨by rw [DALex.read_bytes h2]; exact hb, fun g hg => by cases hg⟩

theorem leBytes_octets : ∀ (n v : Nat), Octets (leBytes n v)
  | 0, _ => fun x hx => by cases hx
  | n + 1, v => by
    intro x hx
    unfold leBytes at hx
    rcases List.mem_cons.mp hx with rfl | hx
    · exact Nat.mod_lt _ (by decide)
    · exact leBytes_octets n _ x hx

theorem toBytes_octets {n : Nat} {signed : Bool} {v : Int} {b : Bytes} (h : toBytes n signed v = .ok b) : Octets b := by
  unfold toBytes at h
  split at h
  · split at h
    · cases h; exact leBytes_octets _ _
    · cases h
  · split at h
    · cases h; exact leBytes_octets _ _
    · cases h

theorem setCost_octets {x x' : DALex} {w : Nat} {c : Int} (hx : Octets x.bytes) (h : x.setCost w c = .ok x') : Octets x'.bytes := by
  unfold DALex.setCost at h
  split at h
  · split at h
    · rename_i b hb
      cases h
      intro y hy
      rcases List.mem_append.mp hy with hy | hy
      · rcases List.mem_append.mp hy with hy | hy
        · exact hx y (List.mem_of_mem_take hy)
        · exact toBytes_octets hb y hy
      · exact hx y (List.mem_of_mem_drop hy)
    · cases h
  · cases h

theorem calculateCost_octets {T : Tokenizer} {depth : Nat} : ∀ {ws : List Nat} {L : Lattice} {x x' : DALex}, Octets x.bytes →
    calculateCost T depth ws L x = .ok x' → Octets x'.bytes
  | [], L, x, x', hx, h => by cases h; exact hx
  | w :: ws, L, x, x', hx, h => by
    unfold calculateCost at h
    split at h
    · cases h
    · split at h
      · exact calculateCost_octets hx h
      · split at h
        · cases h
        · split at h
          · cases h
          · split at h
            · cases h
            · split at h
              · cases h
              · rename_i hs
                exact calculateCost_octets (setCost_octets hx hs) h

/-- The texts of a loaded dictionary. -/
structure Dict.Encodable (d : Dict) : Prop where
  set : d.set.Octets
  grammar : d.grammar.Encodable

theorem readUsers_encodable {cfg : DictConfig} : ∀ {users : List Bytes} {d d' : Dict}, (∀ b ∈ users, Octets b) → d.Encodable →
    d.readUsers cfg users = .ok d' → d'.Encodable
  | [], d, d', _, hd, h => by cases h; exact hd
  | b :: bs, d, d', hb, hd, h => by
    unfold Dict.readUsers at h
    obtain ⟨d1, h1, h⟩ := bind_ok h
    refine readUsers_encodable (fun x hx => hb x (by simp [hx])) ?_ h
    unfold Dict.readUser at h1
    split at h1
    · cases h1
    · obtain ⟨u, h2, h1⟩ := bind_ok h1
      split at h1
      · cases h1
      obtain ⟨x, h3, h1⟩ := bind_ok h1
      unfold fromUserDictionary at h2
      obtain ⟨u', h4, h2⟩ := bind_ok h2
      split at h2
      · cases h2
      · cases h2
        obtain ⟨o1, o2⟩ := readDictionary_encodable (hb b (by simp)) h4
        have hs : (d.set.add x d.grammar.posSize).Octets := by
          intro y hy
          rcases List.mem_append.mp hy with hy | hy
          · exact hd.set y hy
          · rw [List.mem_singleton.mp hy]
            exact calculateCost_octets o1 h3
        dsimp only at h1
        split at h1
        · rename_i g hg
          cases h1
          refine ⟨hs, ?_⟩
          intro p hp
          rcases List.mem_append.mp hp with hp | hp
          · exact hd.grammar p hp
          · exact o2 g hg p hp
        · cases h1
          exact ⟨hs, hd.grammar⟩

theorem load_encodable {cfg : DictConfig} {system : Bytes} {users : List Bytes} {d : Dict} (hs : Octets system) (hu : ∀ b ∈ users, Octets b)
    (h : Dict.load cfg system users = .ok d) : d.Encodable := by
  unfold Dict.load at h
  obtain ⟨d0, h1, h⟩ := bind_ok h
  split at h
  · cases h
  · refine readUsers_encodable hu ?_ h
    unfold Dict.readSystem at h1
    obtain ⟨x, h2, h1⟩ := bind_ok h1
    unfold fromSystemDictionary at h2
    obtain ⟨x', h3, h2⟩ := bind_ok h2
    split at h2
    · cases h2
    · cases h2
      obtain ⟨o1, o2⟩ := readDictionary_encodable hs h3
      split at h1
      · rename_i g hg
        cases h1
        exact ⟨fun y hy => by rw [List.mem_singleton.mp hy]; exact o1, o2 g hg⟩
      · cases h1

end Sudachi
