/-
Lemmas on the settings.
-/
import Verif.Spec.Config
import Verif.Lemmas.DictFile
namespace Sudachi

theorem JDict.find_says {d : JDict} {k : PStr} {v : Json} : d.find k = some v ↔ Says d k v := by
  induction d with
  | nil =>
    constructor
    · intro h
      cases h
    · rintro ⟨a, b, h, -⟩
      cases a <;> cases h
  | cons kv d ih =>
    obtain ⟨k', w⟩ := kv
    unfold JDict.find
    split
    · rename_i e
      subst e
      constructor
      · intro h
        injection h with h
        subst h
        exact ⟨[], d, rfl, fun kv hkv => absurd hkv List.not_mem_nil⟩
      · rintro ⟨a, b, h, hn⟩
        cases a with
        | nil =>
          injection h with h _
          injection h with _ h
          rw [h]
        | cons x a =>
          injection h with h _
          exact absurd (by rw [← h]) (hn x (List.mem_cons_self ..))
    · rename_i e
      rw [ih]
      constructor
      · rintro ⟨a, b, h, hn⟩
        refine ⟨(k', w) :: a, b, by rw [h]; rfl, ?_⟩
        intro kv hkv
        cases List.mem_cons.mp hkv with
        | inl h => rw [h]; exact e
        | inr h => exact hn kv h
      · rintro ⟨a, b, h, hn⟩
        cases a with
        | nil =>
          injection h with h _
          injection h with h _
          exact absurd h e
        | cons x a =>
          injection h with _ h
          exact ⟨a, b, h, fun kv hkv => hn kv (List.mem_cons_of_mem _ hkv)⟩

theorem JDict.find_silent {d : JDict} {k : PStr} : d.find k = none ↔ Silent d k := by
  induction d with
  | nil => exact ⟨fun _ kv hkv => absurd hkv List.not_mem_nil, fun _ => rfl⟩
  | cons kv d ih =>
    obtain ⟨k', w⟩ := kv
    unfold JDict.find
    split
    · rename_i e
      exact ⟨fun h => (by cases h), fun h => absurd e (h (k', w) (List.mem_cons_self ..))⟩
    · rename_i e
      rw [ih]
      constructor
      · intro h kv hkv
        cases List.mem_cons.mp hkv with
        | inl h' => rw [h']; exact e
        | inr h' => exact h kv h'
      · intro h kv hkv
        exact h kv (List.mem_cons_of_mem _ hkv)

theorem JDict.find_set_same (d : JDict) (k : PStr) (v : Json) : (d.set k v).find k = some v := by
  induction d with
  | nil => exact if_pos rfl
  | cons kv d ih =>
    obtain ⟨k', w⟩ := kv
    unfold JDict.set
    split
    · exact if_pos (by assumption)
    · rename_i e
      show (if k' = k then some w else _) = _
      rw [if_neg e, ih]

theorem JDict.find_set_other (d : JDict) {k k' : PStr} (v : Json) (h : k' ≠ k) : (d.set k v).find k' = d.find k' := by
  induction d with
  | nil => exact if_neg (fun e => h e.symm)
  | cons kv d ih =>
    obtain ⟨k2, w⟩ := kv
    unfold JDict.set
    split
    · rename_i e
      show (if k2 = k' then some v else _) = (if k2 = k' then some w else _)
      rw [if_neg (fun e' => h (e'.symm.trans e)), if_neg (fun e' => h (e'.symm.trans e))]
    · show (if k2 = k' then some w else _) = (if k2 = k' then some w else _)
      rw [ih]

theorem absolute_iff (p : PStr) : Absolute p ↔ p.head? = some 47 := by
  cases p with
  | nil => exact ⟨fun ⟨_, h⟩ => (by cases h), fun h => (by cases h)⟩
  | cons c p =>
    constructor
    · rintro ⟨q, h⟩
      rw [h]
      rfl
    · intro h
      injection h with h
      exact ⟨p, by rw [h]⟩

theorem resolve_ok (dir p : PStr) : Resolves dir p (toAbsoluteResourcePath dir p) := by
  unfold toAbsoluteResourcePath
  split
  · rename_i h
    exact .absolute _ _ ((absolute_iff p).mpr h)
  · rename_i h
    have hn : ¬ Absolute p := fun ha => h ((absolute_iff p).mp ha)
    unfold joinPath
    rw [if_neg h]
    by_cases he : dir = []
    · subst he
      exact .here _ hn
    · by_cases hl : dir.getLast? = some 47
      · obtain ⟨d, rfl⟩ := List.getLast?_eq_some_iff.mp hl
        rw [if_pos (by simp)]
        have : d ++ [47] ++ p = d ++ 47 :: p := by simp
        rw [this]
        exact .slash _ _ hn
      · rw [if_neg (by simp [he, hl])]
        refine .below _ _ hn he ?_
        intro d hd
        apply hl
        rw [hd, List.getLast?_append]
        rfl

theorem resolve_only {dir p r : PStr} (h : Resolves dir p r) : r = toAbsoluteResourcePath dir p := by
  unfold toAbsoluteResourcePath
  cases h with
  | absolute _ _ ha => rw [if_pos ((absolute_iff p).mp ha)]
  | here _ hn =>
    have h := fun e => hn ((absolute_iff p).mpr e)
    rw [if_neg h]
    unfold joinPath
    rw [if_neg h]
    rfl
  | slash d _ hn =>
    have h := fun e => hn ((absolute_iff p).mpr e)
    rw [if_neg h]
    unfold joinPath
    rw [if_neg h, if_pos (by simp)]
    simp
  | below _ _ hn he hl =>
    have h := fun e => hn ((absolute_iff p).mpr e)
    rw [if_neg h]
    unfold joinPath
    have : ¬ dir.getLast? = some 47 := by
      intro hh
      obtain ⟨d, hd⟩ := List.getLast?_eq_some_iff.mp hh
      exact hl d hd
    rw [if_neg h, if_neg (by simp [he, this])]

theorem dropWhile_all {l : PStr} {f : Nat → Bool} (h : ∀ x ∈ l, f x = true) (m : PStr) :
    (l ++ m).dropWhile f = m.dropWhile f := by
  induction l with
  | nil => rfl
  | cons x l ih =>
    rw [List.cons_append, List.dropWhile_cons, if_pos (h x (List.mem_cons_self ..))]
    exact ih (fun y hy => h y (List.mem_cons_of_mem _ hy))

theorem ne47 {f : PStr} (h : 47 ∉ f) : ∀ x ∈ f.reverse, (x != 47) = true := by
  intro x hx
  rw [bne_iff_ne]
  intro e
  subst e
  exact h (List.mem_reverse.mp hx)

theorem dirname_ok {p d : PStr} (h : DirOf p d) : dirname p = d := by
  have key : ∀ (m f : PStr), 47 ∉ f →
      ((m ++ [47] ++ f).reverse.dropWhile (· != 47)).reverse = m ++ [47] := by
    intro m f hf
    rw [List.reverse_append, dropWhile_all (ne47 hf), List.reverse_append, List.reverse_singleton,
      List.singleton_append, List.dropWhile_cons, if_neg (by decide), List.reverse_cons, List.reverse_reverse]
  unfold dirname
  cases h with
  | bare _ hf =>
    have : (p.reverse.dropWhile (· != 47)) = [] := by
      rw [← List.append_nil p.reverse, dropWhile_all (ne47 hf)]
      rfl
    simp only [this]
    rfl
  | root n f hf =>
    rw [List.replicate_succ', key _ _ hf]
    dsimp only
    rw [if_pos (by
      rw [← List.replicate_succ']
      simp)]
  | under d c n f hc hf =>
    have e : d ++ [c] ++ List.replicate (n + 1) 47 ++ f = (d ++ [c] ++ List.replicate n 47) ++ [47] ++ f := by
      rw [List.replicate_succ']
      simp
    rw [e, key _ _ hf]
    dsimp only
    rw [if_neg (by simp [hc])]
    unfold rstripSlash
    have e2 : (d ++ [c] ++ List.replicate n 47 ++ [47]).reverse = List.replicate (n + 1) 47 ++ (c :: d.reverse) := by
      rw [List.append_assoc, ← List.replicate_succ']
      simp
    rw [e2, dropWhile_all (by
      intro x hx
      rw [(List.mem_replicate.mp hx).2]
      rfl), List.dropWhile_cons, if_neg (by simp [hc])]
    simp

theorem isZero_iff (x : JReal) : x.isZero = true ↔ x.Zero := by
  unfold JReal.Zero
  cases x with
  | infinity n => exact ⟨nofun, fun ⟨_, _, h⟩ => by rcases h with ⟨_, h, _⟩ | ⟨_, _, h, _⟩ <;> cases h⟩
  | nan => exact ⟨nofun, fun ⟨_, _, h⟩ => by rcases h with ⟨_, h, _⟩ | ⟨_, _, h, _⟩ <;> cases h⟩
  | decimal neg m e =>
    unfold JReal.isZero
    by_cases he : 0 ≤ e
    · simp only [if_pos he, beq_iff_eq]
      constructor
      · intro h
        exact ⟨neg, m, .inl ⟨e.toNat, by rw [Int.toNat_of_nonneg he], h⟩⟩
      · rintro ⟨neg', m', ⟨k, h, h0⟩ | ⟨k, hk, h, _⟩⟩
        · cases h; exact h0
        · injection h with _ _ h
          omega
    · simp only [if_neg he, decide_eq_true_eq]
      generalize (2 : Nat) ^ 1075 = P
      constructor
      · intro h
        exact ⟨neg, m, .inr ⟨(-e).toNat, by omega, by rw [Int.toNat_of_nonneg (by omega), Int.neg_neg], h⟩⟩
      · rintro ⟨neg', m', ⟨k, h, h0⟩ | ⟨k, hk, h, h1⟩⟩
        · injection h with _ _ h
          omega
        · injection h with _ h2 h3
          subst h3
          rw [h2, show (- -(k : Int)).toNat = k by omega]
          exact h1

theorem truthy_empty (v : Json) : v.truthy = false ↔ v.Empty := by
  unfold Json.Empty
  cases v <;> simp [Json.truthy, isZero_iff]

theorem contains_type (name : PStr) (v : Json) (hv : v.truthy = true) :
    (v.Number ∧ v.contains name = .error .type) ∨ (¬ v.Number ∧ ∃ b, v.contains name = .ok b) := by
  unfold Json.Number
  cases v with
  | null => cases hv
  | bool b =>
    have hb : b = true := hv
    subst hb
    exact .inl ⟨.inl rfl, rfl⟩
  | num n =>
    have hn : (n != 0) = true := hv
    exact .inl ⟨.inr (.inl ⟨n, rfl, by simpa using hn⟩), rfl⟩
  | real x =>
    have hx : (!x.isZero) = true := hv
    refine .inl ⟨.inr (.inr ⟨x, rfl, fun h => ?_⟩), rfl⟩
    rw [(isZero_iff x).2 h] at hx
    cases hx
  | str s => exact .inr ⟨by simp, _, rfl⟩
  | list l => exact .inr ⟨by simp, _, rfl⟩
  | obj kvs => exact .inr ⟨by simp, _, rfl⟩

theorem known_iff (t : PStr) : t ∈ [small, core, full] ↔ KnownType t := by
  unfold KnownType
  have h1 : "small".toList.map Char.toNat = small := by decide
  have h2 : "core".toList.map Char.toNat = core := by decide
  have h3 : "full".toList.map Char.toNat = full := by decide
  rw [h1, h2, h3]
  simp

theorem package_eq (t : PStr) : packagePrefix ++ t = packageOf t := by
  unfold packageOf
  have : "sudachidict_".toList.map Char.toNat = packagePrefix := by decide
  rw [this]

theorem systemKey_eq : systemKey = keySystemDict := by decide
theorem userKey_eq : userKey = keyUserDict := by decide
theorem charKey_eq : charKey = keyCharDef := by decide

theorem findDictPath_ok (M : Machine) (t p : PStr) : findDictPath M t = .ok p ↔ M.package (packageOf t) = some p := by
  unfold findDictPath
  rw [package_eq]
  cases M.package (packageOf t) with
  | none => exact ⟨fun h => (by cases h), fun h => (by cases h)⟩
  | some q =>
    constructor
    · intro h
      injection h with h
      rw [h]
    · intro h
      injection h with h
      rw [h]

theorem findDictPath_error (M : Machine) (t : PStr) (h : M.package (packageOf t) = none) :
    findDictPath M t = .error .moduleNotFound := by
  unfold findDictPath
  rw [package_eq, h]

namespace Settings

/-- What is looked at before a given type is used. -/
theorem warningTest_cases (d : JDict) (t : PStr) :
    ((∃ v, Says d systemKey v ∧ v.Number) ∧ warningTest d t = .error .type) ∨
      ((∀ v, Says d systemKey v → ¬ v.Number) ∧ warningTest d t = .ok ()) := by
  unfold warningTest warning
  rw [systemKey_eq]
  cases h : d.find keySystemDict with
  | none =>
    right
    refine ⟨?_, rfl⟩
    intro v hv
    rw [← JDict.find_says, h] at hv
    cases hv
  | some v =>
    have huniq : ∀ w, Says d keySystemDict w → w = v := by
      intro w hw
      rw [← JDict.find_says, h] at hw
      injection hw with hw
      exact hw.symm
    dsimp only
    split
    · rename_i hv
      rcases contains_type (packagePrefix ++ t) v hv with ⟨hn, e⟩ | ⟨hn, b, e⟩
      · exact .inl ⟨⟨v, JDict.find_says.mp h, hn⟩, by rw [e]; rfl⟩
      · exact .inr ⟨fun w hw => by rw [huniq w hw]; exact hn, by rw [e]; rfl⟩
    · rename_i hv
      refine .inr ⟨fun w hw => ?_, rfl⟩
      rw [huniq w hw]
      have hv := (truthy_empty v).mp (by simpa using hv)
      rintro (hn | ⟨n, hn, h0⟩ | ⟨x, hn, h0⟩)
      · rw [hn] at hv
        rcases hv with h | h | h | ⟨_, h, _⟩ | h | h | h <;> cases h
      · rw [hn] at hv
        rcases hv with h | h | h | ⟨_, h, _⟩ | h | h | h
        · cases h
        · cases h
        · exact h0 (Json.num.inj h)
        all_goals cases h
      · rw [hn] at hv
        rcases hv with h | h | h | ⟨_, h, hz⟩ | h | h | h
        · cases h
        · cases h
        · cases h
        · cases h; exact h0 hz
        all_goals cases h

theorem isInfix_iff {sub : PStr} : ∀ {s : PStr}, isInfix sub s = true ↔ ∃ a b, s = a ++ sub ++ b
  | [] => by
    unfold isInfix
    rw [List.isEmpty_iff]
    constructor
    · rintro rfl; exact ⟨[], [], rfl⟩
    · rintro ⟨a, b, h⟩
      have := congrArg List.length h
      simp at this
      exact List.length_eq_zero_iff.mp (by omega)
  | c :: s => by
    unfold isInfix
    rw [Bool.or_eq_true, isInfix_iff (s := s), List.isPrefixOf_iff_prefix]
    constructor
    · rintro (⟨b, h⟩ | ⟨a, b, h⟩)
      · exact ⟨[], b, by rw [← h]; rfl⟩
      · exact ⟨c :: a, b, by rw [h]; rfl⟩
    · rintro ⟨a, b, h⟩
      cases a with
      | nil => exact .inl ⟨b, h.symm⟩
      | cons x a =>
        simp only [List.cons_append, List.cons.injEq] at h
        exact .inr ⟨a, b, h.2⟩

theorem contains_names (name : PStr) (v : Json) (hv : ¬ v.Number) (hn : ¬ v.Empty) : ∃ b, v.contains name = .ok b ∧ (b = true ↔ v.Names name) := by
  unfold Json.contains Json.Names
  cases v with
  | null => exact absurd (.inl rfl) hn
  | bool b =>
    cases b with
    | false => exact absurd (.inr (.inl rfl)) hn
    | true => exact absurd (.inl rfl) hv
  | num n => exact absurd (.inr (.inl ⟨n, rfl, fun h => hn (by subst h; exact .inr (.inr (.inl rfl)))⟩)) hv
  | real x => exact absurd (.inr (.inr ⟨x, rfl, fun h => hn (.inr (.inr (.inr (.inl ⟨x, rfl, h⟩))))⟩)) hv
  | str s => exact ⟨_, rfl, isInfix_iff⟩
  | list l =>
    refine ⟨_, rfl, ?_⟩
    rw [List.any_eq_true]
    constructor
    · rintro ⟨x, hx, h⟩
      cases x <;> simp at h
      subst h
      exact hx
    · intro h
      exact ⟨_, h, by simp⟩
  | obj kvs =>
    refine ⟨_, rfl, ?_⟩
    rw [List.any_eq_true]
    constructor
    · rintro ⟨⟨k, w⟩, hx, h⟩
      have : k = name := by simpa using h
      subst this
      exact ⟨w, hx⟩
    · rintro ⟨w, h⟩
      exact ⟨_, h, by simp⟩

theorem setUp_ok (M : Machine) (s : Settings) (c r t : Option PStr) (d : JDict)
    (hd : M.settings (strOr c M.defaultSetting) = .ok d) :
    setUp M s c r t = match chooseDict M d t with
      | .error e => (⟨true, some d, some (strOr c M.defaultSetting), some (strOr r (dirname (strOr c M.defaultSetting)))⟩, .error e)
      | .ok d' => (⟨true, some d', some (strOr c M.defaultSetting), some (strOr r (dirname (strOr c M.defaultSetting)))⟩, .ok ()) := by
  unfold setUp
  dsimp only
  rw [hd]
  rfl

theorem systemDictPath_of {s : Settings} {d : JDict} {dir : PStr} {v : Json} (h1 : s.dict = some d)
    (h2 : s.resourceDir = some dir) (h3 : d.find keySystemDict = some v) : s.systemDictPath = toAbsolute dir v := by
  unfold systemDictPath theDict theDir
  rw [h1, h2]
  have : d.get keySystemDict = .ok v := by
    unfold JDict.get
    rw [h3]
  show (d.get keySystemDict >>= fun v => _) = _
  rw [this]
  rfl

end Settings

theorem mapM_resolve (dir : PStr) (paths : List PStr) :
    (paths.map Json.str).mapM (toAbsolute dir) = .ok (paths.map (toAbsoluteResourcePath dir)) := by
  induction paths with
  | nil => rfl
  | cons p ps ih =>
    rw [List.map_cons, List.mapM_cons]
    rw [ih]
    rfl

end Sudachi
