import Verif.Lemmas.Open
import Verif.Lemmas.Definitions2
import Verif.Spec.Shipped
import Verif.Spec.CharDef
import Verif.Spec.Lattice
import Verif.Spec.Total
import Verif.Lemmas.Compiled
namespace Sudachi

/-! ### Reading text files -/

theorem linesAux_line {l : PStr} (h : ∀ c ∈ l, c ≠ 10 ∧ c ≠ 13) (cur rest : PStr) :
    linesAux cur (l ++ 10 :: rest) = (cur ++ l ++ [10]) :: linesAux [] rest := by
  induction l generalizing cur with
  | nil =>
    rw [List.nil_append]
    conv => lhs; unfold linesAux
    simp
  | cons c l ih =>
    have hc := h c (by simp)
    rw [List.cons_append]
    conv => lhs; unfold linesAux
    split
    · rename_i heq; simp at heq
    · rename_i heq
      injection heq with h1 h2
      exact absurd h1 hc.2
    · rename_i heq
      injection heq with h1 h2
      subst h1 h2
      rw [if_neg (by rintro (h | h); exact hc.2 h; exact hc.1 h), ih (fun c hc => h c (by simp [hc]))]
      simp

theorem linesAux_lines : ∀ {ls : List PStr}, (∀ l ∈ ls, ∀ c ∈ l, c ≠ 10 ∧ c ≠ 13) →
    linesAux [] (ls.flatMap fun l => l ++ [10]) = ls.map (· ++ [10])
  | [], _ => by simp [linesAux]
  | l :: ls, h => by
    rw [List.flatMap_cons, List.append_assoc, List.singleton_append, linesAux_line (h l (by simp)),
      linesAux_lines (fun l hl => h l (by simp [hl]))]
    rfl

/-- A line without line breaks, of characters that can be encoded. -/
def plainLine (l : PStr) : Bool := l.all fun c => encodable c && c != 10 && c != 13

theorem textLines_textFile {ls : List PStr} (h : ls.all plainLine = true) : textLines (textFile ls) = .ok (ls.map (· ++ [10])) := by
  have hl : ∀ l ∈ ls, ∀ c ∈ l, encodable c = true ∧ c ≠ 10 ∧ c ≠ 13 := by
    intro l hl c hc
    have := List.all_eq_true.mp (List.all_eq_true.mp h l hl) c hc
    simp only [Bool.and_eq_true, bne_iff_ne] at this
    exact ⟨this.1.1, this.1.2, this.2⟩
  have henc : ∀ c ∈ ls.flatMap (fun l => l ++ [10]), encodable c = true := by
    intro c hc
    obtain ⟨l, h1, h2⟩ := List.mem_flatMap.mp hc
    rcases List.mem_append.mp h2 with h2 | h2
    · exact (hl l h1 c h2).1
    · rw [List.mem_singleton.mp h2]; decide
  unfold textLines textFile
  rw [decodeUtf8_encode (encodeUtf8_eq henc)]
  show Except.ok (linesAux [] _) = _
  rw [linesAux_lines (fun l h1 c h2 => (hl l h1 c h2).2)]

/-! ### The shipped files -/

set_option maxRecDepth 100000

theorem shipped_char_plain : shippedCharDef.all plainLine = true := by decide +kernel
theorem shipped_unk_plain : shippedUnkDef.all plainLine = true := by decide +kernel
theorem shipped_rewrite_plain : shippedRewriteDef.all plainLine = true := by decide +kernel

theorem shipped_ranges : charDefLines (shippedCharDef.map (· ++ [10])) = .ok shippedRanges := by decide +kernel

/-- The category lines of char.def, as `read_character_property` stores them. -/
theorem shipped_properties : readProperties (fun _ => none) [] (shippedCharDef.map (· ++ [10])) =
    .ok (shippedCategories.map fun p => (.member p.1, p.2)) := by decide +kernel

/-- An entry within the limits of the shipped dictionaries. -/
def entryInRange (e : OovEntry) : Bool :=
  decide (0 ≤ e.leftId) && decide (e.leftId ≤ 5968) && decide (0 ≤ e.rightId) && decide (e.rightId ≤ 5968) &&
    decide (-32768 ≤ e.cost) && decide (e.cost ≤ 32767)

/-- The entries are in range and of members. -/
def entriesInRange : Res (List (Attr × OovEntry)) → Bool
  | .ok es => es.all fun p => entryInRange p.2
  | .error _ => false

theorem shipped_entries : entriesInRange (readUnk (fun _ => none) ⟨[], 0, 0, [], 0⟩ (shippedCategories.map fun p => (.member p.1, p.2))
    (shippedUnkDef.map (· ++ [10]))) = true := by decide +kernel

/-- The replacements can be encoded. -/
def tableEncodable : Res RewriteTable → Bool
  | .ok tb => tb.replaceMap.all fun kv => kv.2.all encodable
  | .error _ => false

theorem shipped_table : tableEncodable (readRewriteDef (shippedRewriteDef.map (· ++ [10]))) = true := by decide +kernel

theorem dictGet_mem {α β : Type} [DecidableEq α] : ∀ {l : List (α × β)} {k : α} {v : β}, dictGet l k = some v → (k, v) ∈ l
  | [], _, _, h => by cases h
  | (k', v') :: l, k, v, h => by
    rw [dictGet] at h
    split at h
    · rename_i e; subst e; cases h; exact List.mem_cons_self
    · exact List.mem_cons_of_mem _ (dictGet_mem h)

/-! ### Other attributes and other grammars -/

theorem getAttr_none {others : PStr → Option Attr} {name : PStr} {a : Attr} (h : getAttr (fun _ => none) name = some a) :
    getAttr others name = some a := by
  unfold getAttr at h ⊢
  cases hc : Cat.get name with
  | some c => rw [hc] at h; exact h
  | none => rw [hc] at h; cases h

theorem propertyLine_mono {others : PStr → Option Attr} {defined : List (Attr × CategoryInfo)} {line : PStr}
    {r : Option (Attr × CategoryInfo)} (h : propertyLine (fun _ => none) defined line = .ok r) : propertyLine others defined line = .ok r := by
  unfold propertyLine at h ⊢
  split at h
  · rename_i hs; rw [if_pos hs]; exact h
  · rename_i hs
    rw [if_neg hs]
    split at h
    · rename_i name invoke group length _ heq
      cases hg : getAttr (fun _ => none) name with
      | none => rw [hg] at h; cases h
      | some a => rw [hg] at h; rw [getAttr_none hg]; exact h
    · cases h

theorem readProperties_mono {others : PStr → Option Attr} : ∀ {lines : List PStr} {defined r : List (Attr × CategoryInfo)},
    readProperties (fun _ => none) defined lines = .ok r → readProperties others defined lines = .ok r
  | [], _, _, h => by rw [readProperties] at h ⊢; exact h
  | line :: lines, defined, r, h => by
    rw [readProperties] at h ⊢
    obtain ⟨p, h1, h2⟩ := bind_ok h
    rw [propertyLine_mono h1]
    dsimp only [bind, Except.bind]
    cases p with
    | none => exact readProperties_mono h2
    | some p => exact readProperties_mono h2

/-- The same up to the part of speech. -/
def SameButPos (a b : Attr × OovEntry) : Prop :=
  a.1 = b.1 ∧ a.2.leftId = b.2.leftId ∧ a.2.rightId = b.2.rightId ∧ a.2.cost = b.2.cost

theorem unkLine_mono {others : PStr → Option Attr} {g g' : Grammar} {defined : List (Attr × CategoryInfo)} {line : PStr}
    {r : Option (Attr × OovEntry)} (h : unkLine (fun _ => none) g defined line = .ok r) :
    (r = none ∧ unkLine others g' defined line = .ok none) ∨
      ∃ a b, r = some a ∧ unkLine others g' defined line = .ok (some b) ∧ SameButPos a b := by
  unfold unkLine at h ⊢
  split at h
  · rename_i hs; rw [if_pos hs]; cases h; exact .inl ⟨rfl, rfl⟩
  · rename_i hs
    rw [if_neg hs]
    split at h
    · rename_i name left right cost p0 p1 p2 p3 p4 p5 _ heq
      cases hg : getAttr (fun _ => none) name with
      | none => rw [hg] at h; cases h
      | some a =>
        rw [hg] at h; rw [getAttr_none hg]
        have key : ∀ a : Attr, (if (dictGet defined a).isNone then (.error .value : Res (Option (Attr × OovEntry))) else do
            let l ← pyInt left
            let r ← pyInt right
            let c ← pyInt cost
            pure (some (a, ⟨l, r, c, g.posId [p0, p1, p2, p3, p4, p5]⟩))) = .ok r →
            ∃ x y, r = some x ∧ (if (dictGet defined a).isNone then (.error .value : Res (Option (Attr × OovEntry))) else do
            let l ← pyInt left
            let r ← pyInt right
            let c ← pyInt cost
            pure (some (a, ⟨l, r, c, g'.posId [p0, p1, p2, p3, p4, p5]⟩))) = .ok (some y) ∧ SameButPos x y := by
          intro a h
          split at h
          · cases h
          · rename_i hd
            rw [if_neg hd]
            obtain ⟨l, h1, h⟩ := bind_ok h
            obtain ⟨rr, h2, h⟩ := bind_ok h
            obtain ⟨c, h3, h⟩ := bind_ok h
            cases h
            refine ⟨_, (a, ⟨l, rr, c, g'.posId [p0, p1, p2, p3, p4, p5]⟩), rfl, ?_, rfl, rfl, rfl, rfl⟩
            rw [h1]; dsimp only [bind, Except.bind]
            rw [h2]; dsimp only
            rw [h3]; rfl
        cases a with
        | unhashable => cases h
        | member c => exact .inr (key (.member c) h)
        | other n => exact .inr (key (.other n) h)
    · cases h

theorem readUnk_mono {others : PStr → Option Attr} {g g' : Grammar} {defined : List (Attr × CategoryInfo)} :
    ∀ {lines : List PStr} {r : List (Attr × OovEntry)}, readUnk (fun _ => none) g defined lines = .ok r →
      ∃ r', readUnk others g' defined lines = .ok r' ∧ Each SameButPos r r'
  | [], r, h => by rw [readUnk] at h; cases h; exact ⟨[], rfl, .nil⟩
  | line :: lines, r, h => by
    rw [readUnk] at h
    obtain ⟨x, h1, h⟩ := bind_ok h
    obtain ⟨rs, h2, h⟩ := bind_ok h
    obtain ⟨rs', h3, h4⟩ := readUnk_mono h2
    rw [readUnk]
    rcases unkLine_mono (others := others) (g' := g') h1 with ⟨rfl, h5⟩ | ⟨a, b, rfl, h5, h6⟩
    · cases h
      refine ⟨rs', ?_, h4⟩
      rw [h5]; dsimp only [bind, Except.bind]; rw [h3]; rfl
    · cases h
      refine ⟨b :: rs', ?_, .cons h6 h4⟩
      rw [h5]; dsimp only [bind, Except.bind]; rw [h3]; rfl

theorem Each.right {α β : Type} {R : α → β → Prop} {l : List α} {m : List β} (h : Each R l m) : ∀ b ∈ m, ∃ a ∈ l, R a b := by
  induction h with
  | nil => intro b hb; cases hb
  | cons h1 _ ih =>
    intro b hb
    rcases List.mem_cons.mp hb with rfl | hb
    · exact ⟨_, by simp, h1⟩
    · obtain ⟨a, h2, h3⟩ := ih b hb; exact ⟨a, by simp [h2], h3⟩

theorem mem_members {α : Type} : ∀ {l : List (Attr × α)} {c : Cat} {x : α}, (c, x) ∈ members l ↔ (Attr.member c, x) ∈ l
  | [], c, x => by simp [members]
  | (.member c', y) :: l, c, x => by rw [members]; simp [mem_members]
  | (.other n, y) :: l, c, x => by rw [members]; simp [mem_members]; intro c x h; cases h
  | (.unhashable, y) :: l, c, x => by rw [members]; simp [mem_members]; intro c x h; cases h

theorem members_map {α : Type} : ∀ l : List (Cat × α), members (l.map fun p => (Attr.member p.1, p.2)) = l
  | [] => rfl
  | (c, x) :: l => by rw [List.map_cons, members, members_map l]

/-- Setting up the MeCab plugin with the shipped files, for any grammar. -/
theorem shipped_mecab (others : PStr → Option Attr) (g : Grammar) :
    ∃ cs us, readProperties others [] (shippedCharDef.map (· ++ [10])) = .ok cs ∧
      readUnk others g cs (shippedUnkDef.map (· ++ [10])) = .ok us ∧ members cs = shippedCategories ∧
      ∀ c e, (c, e) ∈ members us → entryInRange e = true := by
  have he := shipped_entries
  cases h : readUnk (fun _ => none) ⟨[], 0, 0, [], 0⟩ (shippedCategories.map fun p => (.member p.1, p.2)) (shippedUnkDef.map (· ++ [10])) with
  | error e => rw [h] at he; cases he
  | ok us0 =>
    rw [h] at he
    obtain ⟨us, h1, h2⟩ := readUnk_mono (others := others) (g' := g) h
    refine ⟨_, us, readProperties_mono shipped_properties, h1, members_map _, ?_⟩
    intro c e hm
    obtain ⟨a, h3, h4, h5, h6, h7⟩ := h2.right _ (mem_members.mp hm)
    have := List.all_eq_true.mp he a h3
    unfold entryInRange at this ⊢
    rw [h5, h6, h7] at this
    exact this

end Sudachi
