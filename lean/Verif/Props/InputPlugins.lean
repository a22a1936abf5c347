/-
C12, C13: the input text plugins.
-/
import Verif.Lemmas.InputPlugins
namespace Sudachi

/-- **C12** Default normalisation: for every rewrite.def (its lines split into non-empty columns) that is accepted,
and every valid builder, the rewrite succeeds, keeps the builder valid and the original text, and the new text is
the leftmost longest-match normalisation of the old one. -/
theorem C12_default_rewrite (lines : List (List PStr)) (hcols : ∀ cols ∈ lines, ∀ s ∈ cols, s ≠ ([] : PStr))
    (tb : RewriteTable) (htb : readRewriteLines RewriteTable.empty lines = .ok tb)
    (lower nfkc : PStr → PStr) (hlow : ∀ c, lower [c] ≠ []) (hnf : ∀ s, s ≠ [] → nfkc s ≠ [])
    (bd : Builder) (hv : bd.Valid) :
    ∃ bd', defaultRewrite tb lower nfkc bd = .ok bd' ∧ bd'.Valid ∧ bd'.original = bd.original ∧
      Normalised (fun k v => [k, v] ∈ lines) (fun s => [s] ∈ lines) lower nfkc bd.modified bd'.modified := by
  have hT := readRewriteLines_ok lines [] RewriteTable.empty tb TableOk.empty htb
  rw [List.nil_append] at hT
  obtain ⟨bd', out, h1, h2, h3, h4, h5⟩ := defaultLoop_spec hT hcols hlow hnf bd.modified (bd.modified.length + 1) 0 0 bd
    [] hv (by simp) (by simp) (by omega) (by omega)
  exact ⟨bd', h1, h2, h3, by rw [h4]; simpa using h5⟩

/-- **C12** The normalised text is determined: the specification relation is functional when rewrite.def has at most
one value per key, which `read_rewrite_lists` enforces. -/
theorem C12_normalised_unique {table : PStr → PStr → Prop} {ignored : PStr → Prop} {lower nfkc : PStr → PStr}
    (huniq : ∀ k v v', table k v → table k v' → v = v') {text out out' : PStr}
    (h : Normalised table ignored lower nfkc text out) (h' : Normalised table ignored lower nfkc text out') :
    out = out' := by
  induction h generalizing out' with
  | nil =>
    generalize he : ([] : PStr) = x at h'
    cases h' with
    | nil => rfl
    | key hk => simp [hk] at he
    | keep => cases he
    | norm => cases he
  | key hk ht hmax hrest ih =>
    rename_i k v rest out
    generalize he : k ++ rest = x at h'
    cases h' with
    | nil => simp [hk] at he
    | key hk2 ht2 hmax2 hr2 =>
      rename_i k2 v2 rest2 out2
      have hp2 : k2 <+: k ++ rest := ⟨rest2, he.symm⟩
      have hp : k <+: k2 ++ rest2 := ⟨rest, he⟩
      have h1 := hmax k2 v2 ht2 hp2
      have h2 := hmax2 k v ht hp
      obtain ⟨rfl, rfl⟩ := List.append_inj he (by omega)
      rw [huniq _ _ _ ht ht2, ih hr2]
    | keep hno => exact absurd ⟨rest, he⟩ (hno k v ht)
    | norm hno => exact absurd ⟨rest, he⟩ (hno k v ht)
  | keep hno hig hrest ih =>
    rename_i c rest out
    generalize he : c :: rest = x at h'
    cases h' with
    | nil => cases he
    | key hk2 ht2 hm2 hr2 => rename_i k2 v2 rest2 out2; exact absurd ⟨rest2, he.symm⟩ (hno k2 v2 ht2)
    | keep _ _ hr2 => cases he; rw [ih hr2]
    | norm _ hig2 _ => cases he; exact absurd hig hig2
  | norm hno hig hrest ih =>
    rename_i c rest out
    generalize he : c :: rest = x at h'
    cases h' with
    | nil => cases he
    | key hk2 ht2 hm2 hr2 => rename_i k2 v2 rest2 out2; exact absurd ⟨rest2, he.symm⟩ (hno k2 v2 ht2)
    | keep _ hig2 _ => cases he; exact absurd hig2 hig
    | norm _ _ hr2 => cases he; rw [ih hr2]

/-- rewrite.def with keys "ab" -> "XYZ", "a" -> "q", ignore "K"; text "aabK": "q" then "XYZ" then "K". -/
example :
    let lines : List (List PStr) := [[[97, 98], [88, 89, 90]], [[97], [113]], [[75]]]
    (∀ cols ∈ lines, ∀ s ∈ cols, s ≠ ([] : PStr)) ∧
    ∃ tb, readRewriteLines RewriteTable.empty lines = .ok tb ∧
      defaultRewrite tb id id (Builder.init [97, 97, 98, 75]) =
        .ok ⟨[97, 97, 98, 75], [113, 88, 89, 90, 75], [0, 1, 3, 3, 3, 4]⟩ := by
  refine ⟨by decide, _, rfl, by decide⟩

/-- **C13** Prolonged sound marks with a one-character symbol. -/
theorem C13_psm_rewrite (marks : List Nat) (sym : Nat) (bd : Builder) (hv : bd.Valid) :
    ∃ bd', psmRewrite marks [sym] bd = .ok bd' ∧ bd'.Valid ∧ bd'.original = bd.original ∧
      Collapsed (· ∈ marks) sym bd.modified bd'.modified :=
  psmRewrite_spec marks sym bd hv

/-- **C13** The specification determines the text. -/
theorem C13_collapsed_unique {mark : Nat → Prop} {sym : Nat} {text out out' : PStr}
    (h : Collapsed mark sym text out) (h' : Collapsed mark sym text out') : out = out' := by
  have key : ∀ (m1 m2 r1 r2 : PStr), (∀ c ∈ m1, mark c) → (∀ c ∈ m2, mark c) → NoMarkFirst mark r1 →
      NoMarkFirst mark r2 → m1 ++ r1 = m2 ++ r2 → m1 = m2 ∧ r1 = r2 := by
    intro m1
    induction m1 with
    | nil =>
      intro m2 r1 r2 _ h2 h3 _ he
      cases m2 with
      | nil => exact ⟨rfl, he⟩
      | cons c m2 => exact absurd (h2 c (by simp)) (h3 c (m2 ++ r2) he)
    | cons c m1 ih =>
      intro m2 r1 r2 h1 h2 h3 h4 he
      cases m2 with
      | nil => exact absurd (h1 c (by simp)) (h4 c (m1 ++ r1) he.symm)
      | cons d m2 =>
        simp only [List.cons_append, List.cons.injEq] at he
        obtain ⟨e1, e2⟩ := ih m2 r1 r2 (fun x hx => h1 x (by simp [hx])) (fun x hx => h2 x (by simp [hx])) h3 h4 he.2
        rw [he.1, e1, e2]; exact ⟨rfl, rfl⟩
  induction h generalizing out' with
  | nil =>
    generalize he : ([] : PStr) = x at h'
    cases h' with
    | nil => rfl
    | run hl hm hnf hr =>
      rename_i marks rest out
      cases marks with
      | nil => simp at hl
      | cons m ms => simp at he
    | _ => cases he
  | other hc hr ih =>
    rename_i c rest out
    generalize he : c :: rest = x at h'
    cases h' with
    | nil => cases he
    | other _ h2 => cases he; rw [ih h2]
    | single h1 => cases he; exact absurd h1 hc
    | run hl hm =>
      rename_i marks _ _ _ _
      cases marks with
      | nil => simp at hl
      | cons m ms => simp at he; obtain ⟨rfl, -⟩ := he; exact absurd (hm c (by simp)) hc
  | single hc hnf hr ih =>
    rename_i c rest out
    generalize he : c :: rest = x at h'
    cases h' with
    | nil => cases he
    | other h1 => cases he; exact absurd hc h1
    | single _ _ h2 => cases he; rw [ih h2]
    | run hl hm hnf2 =>
      rename_i marks rest2 _ _
      obtain ⟨e1, -⟩ := key [c] marks rest rest2 (by simpa using hc) hm hnf hnf2 he
      rw [← e1] at hl; simp at hl
  | run hl hm hnf hr ih =>
    rename_i marks rest out
    generalize he : marks ++ rest = x at h'
    cases h' with
    | nil => cases marks <;> simp_all
    | other h1 =>
      cases marks with
      | nil => simp at hl
      | cons m ms => simp at he; obtain ⟨rfl, -⟩ := he; exact absurd (hm m (by simp)) h1
    | single h1 hnf2 =>
      rename_i c rest2 _ _
      obtain ⟨e1, -⟩ := key marks [c] rest rest2 hm (by simpa using h1) hnf hnf2 he
      rw [e1] at hl; simp at hl
    | run hl2 hm2 hnf2 h2 =>
      rename_i marks2 rest2 out2
      obtain ⟨e1, e2⟩ := key marks marks2 rest rest2 hm hm2 hnf hnf2 he
      subst e2
      rw [ih h2]

/-- **C13** With a two-character symbol the second run is replaced at the wrong place: in "ーーaーーb" the character
"a" is overwritten and a mark survives. -/
theorem C13_long_symbol_witness :
    ∃ bd', psmRewrite [0x30FC] [0x7E, 0x7E] (Builder.init [0x30FC, 0x30FC, 97, 0x30FC, 0x30FC, 98]) = .ok bd' ∧
      bd'.modified = [0x7E, 0x7E, 0x7E, 0x7E, 0x30FC, 98] :=
  ⟨_, rfl, by decide⟩

/-- "aーーーb〜c" with marks ー, 〜. -/
example : ∃ bd', psmRewrite [0x30FC, 0x301C] [0x30FC] (Builder.init [97, 0x30FC, 0x301C, 0x30FC, 98, 0x301C, 99]) = .ok bd' ∧
    bd'.modified = [97, 0x30FC, 98, 0x301C, 99] ∧ bd'.m2o = [0, 1, 4, 5, 6, 7] := ⟨_, rfl, by decide, by decide⟩

end Sudachi
