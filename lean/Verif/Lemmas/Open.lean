import Verif.Spec.Open
import Verif.Lemmas.Config
import Verif.Lemmas.Definitions2
import Verif.Props.TextStream
namespace Sudachi

theorem bind_ok_iff {α β : Type} {x : Res α} {f : α → Res β} {b : β} : x.bind f = .ok b ↔ ∃ a, x = .ok a ∧ f a = .ok b := by
  cases x with
  | error e => exact ⟨fun h => (by cases h), fun ⟨a, h, _⟩ => (by cases h)⟩
  | ok a => exact ⟨fun h => ⟨a, rfl, h⟩, fun ⟨a', h, h'⟩ => by cases h; exact h'⟩

theorem Each.imp {α β : Type} {R R' : α → β → Prop} (h : ∀ a b, R a b → R' a b) {l : List α} {m : List β} (he : Each R l m) :
    Each R' l m := by
  induction he with
  | nil => exact .nil
  | cons h1 _ ih => exact .cons (h _ _ h1) ih

theorem Each.congr {α β : Type} {R R' : α → β → Prop} (h : ∀ a b, R a b ↔ R' a b) {l : List α} {m : List β} :
    Each R l m ↔ Each R' l m := ⟨Each.imp fun a b => (h a b).mp, Each.imp fun a b => (h a b).mpr⟩

theorem Each.length {α β : Type} {R : α → β → Prop} {l : List α} {m : List β} (he : Each R l m) : l.length = m.length := by
  induction he with
  | nil => rfl
  | cons _ _ ih => simp [ih]

theorem mapM_iff {α β : Type} {f : α → Res β} : ∀ {l : List α} {m : List β}, l.mapM f = .ok m ↔ Each (fun a b => f a = .ok b) l m
  | [], m => by
    rw [List.mapM_nil]
    constructor
    · intro h; cases h; exact .nil
    · intro h; cases h; rfl
  | a :: l, m => by
    rw [List.mapM_cons]
    show (f a).bind _ = _ ↔ _
    rw [bind_ok_iff]
    constructor
    · rintro ⟨b, h1, h2⟩
      have h2 : (l.mapM f).bind (fun bs => pure (b :: bs)) = .ok m := h2
      obtain ⟨bs, h3, h4⟩ := bind_ok_iff.mp h2
      cases h4
      exact .cons h1 (mapM_iff.mp h3)
    · intro h
      cases h with
      | cons h1 h2 =>
        refine ⟨_, h1, ?_⟩
        show (l.mapM f).bind _ = _
        rw [mapM_iff.mpr h2]; rfl

/-! ### Keys -/

theorem keyClass_eq : keyClass = codes "class" := by decide
theorem keyLeftId_eq : keyLeftId = codes "leftId" := by decide
theorem keyRightId_eq : keyRightId = codes "rightId" := by decide
theorem keyCost_eq : keyCost = codes "cost" := by decide
theorem keyOovPOS_eq : keyOovPOS = codes "oovPOS" := by decide
theorem keyCharDefName_eq : keyCharDefName = codes "charDef" := by decide
theorem keyUnkDef_eq : keyUnkDef = codes "unkDef" := by decide
theorem keyMarks_eq : keyMarks = codes "prolongedSoundMarks" := by decide
theorem keySymbol_eq : keySymbol = codes "replacementSymbol" := by decide
theorem keyNormalize_eq : keyNormalize = codes "enableNormalize" := by decide
theorem keyMinLength_eq : keyMinLength = codes "minLength" := by decide
theorem keyInputPlugins_eq : keyInputPlugins = codes "inputTextPlugin" := by decide
theorem keyOovPlugins_eq : keyOovPlugins = codes "oovProviderPlugin" := by decide
theorem keyPathPlugins_eq : keyPathPlugins = codes "pathRewritePlugin" := by decide
theorem classDefault_eq : classDefault = codes "sudachipy.plugin.input_text.DefaultInputTextPlugin" := by decide +kernel
theorem classProlonged_eq : classProlonged = codes "sudachipy.plugin.input_text.ProlongedSoundMarkInputTextPlugin" := by decide +kernel
theorem classMeCab_eq : classMeCab = codes "sudachipy.plugin.oov.MeCabOovProviderPlugin" := by decide +kernel
theorem classSimple_eq : classSimple = codes "sudachipy.plugin.oov.SimpleOovProviderPlugin" := by decide +kernel
theorem classNumeric_eq : classNumeric = codes "sudachipy.plugin.path_rewrite.JoinNumericPlugin" := by decide +kernel
theorem classKatakana_eq : classKatakana = codes "sudachipy.plugin.path_rewrite.JoinKatakanaOovPlugin" := by decide +kernel
theorem rewriteDef_eq : rewriteDef = codes "rewrite.def" := by decide
theorem numericPos_eq : numericPos = [codes "名詞", codes "数詞", codes "*", codes "*", codes "*", codes "*"] := by decide

attribute [local irreducible] codes

theorem at_iff {j : Json} {key : String} {v : Json} : j.at (codes key) = .ok v ↔ j.Has key v := by
  unfold Json.at Json.Has
  cases j with
  | obj d =>
    show JDict.get d (codes key) = _ ↔ _
    unfold JDict.get
    constructor
    · intro h
      cases hf : JDict.find d (codes key) with
      | none => rw [hf] at h; cases h
      | some w => rw [hf] at h; cases h; exact ⟨d, rfl, JDict.find_says.mp hf⟩
    · rintro ⟨d', h, h'⟩
      cases h
      rw [JDict.find_says.mpr h']
  | _ => exact ⟨fun h => (by cases h), fun ⟨d, h, _⟩ => (by cases h)⟩

theorem Json.Has.opt {j : Json} {key : String} {v : Json} (h : j.Has key v) : j.opt (codes key) = some v := by
  obtain ⟨d, rfl, h⟩ := h; exact JDict.find_says.mpr h

theorem Json.Lacks.opt {j : Json} {key : String} (h : j.Lacks key) : j.opt (codes key) = none := by
  obtain ⟨d, rfl, h⟩ := h; exact JDict.find_silent.mpr h

theorem Json.Has.find {j : Json} {key key' : String} {v : Json} (h : j.Has key v) :
    (j.opt (codes key') = none → j.Lacks key') ∧ ∀ w, j.opt (codes key') = some w → j.Has key' w := by
  obtain ⟨d, rfl, h⟩ := h
  exact ⟨fun h' => ⟨d, rfl, JDict.find_silent.mp h'⟩, fun w h' => ⟨d, rfl, JDict.find_says.mp h'⟩⟩

theorem int_iff {v : Json} {n : Int} : v.int = .ok n ↔ v.IsInt n := by
  unfold Json.int Json.IsInt
  cases v with
  | num m => simp
  | bool b => cases b <;> simp [eq_comm]
  | _ => simp

theorem keyToValue_ok {α : Type} {r : Res α} {x : α} : keyToValue r = .ok x ↔ r = .ok x := by
  unfold keyToValue
  split
  · simp
  · rfl

theorem ord_each : ∀ {l : List Json} {cs : List Nat}, Each (fun a b => Json.ord a = .ok b) l cs ↔ l = cs.map fun c => .str [c]
  | [], cs => by
    constructor
    · intro h; cases h; rfl
    · intro h
      cases cs with
      | nil => exact .nil
      | cons => cases h
  | j :: l, cs => by
    constructor
    · intro h
      cases h with
      | cons h1 h2 =>
        rw [List.map_cons, ← ord_each.mp h2]
        unfold Json.ord at h1
        split at h1
        · cases h1; rfl
        · cases h1
    · intro h
      cases cs with
      | nil => cases h
      | cons c cs =>
        rw [List.map_cons] at h
        injection h with h1 h2
        subst h1
        exact .cons rfl (ord_each.mpr h2)

theorem map_str_one {cs : List Nat} {s : PStr} : (s.map (fun c => Json.str [c])) = cs.map (fun c => Json.str [c]) ↔ s = cs := by
  constructor
  · intro h
    induction s generalizing cs with
    | nil => cases cs with
      | nil => rfl
      | cons => cases h
    | cons c s ih =>
      cases cs with
      | nil => cases h
      | cons d cs =>
        rw [List.map_cons, List.map_cons] at h
        injection h with h1 h2
        injection h1 with h1
        injection h1 with h1
        rw [h1, ih h2]
  · intro h; rw [h]

theorem map_str_keys : ∀ {kvs : List (PStr × Json)} {cs : List Nat},
    (kvs.map (fun kv => Json.str kv.1)) = cs.map (fun c => Json.str [c]) ↔ kvs.map (·.1) = cs.map ([·])
  | [], cs => by cases cs <;> simp
  | kv :: kvs, [] => by simp
  | kv :: kvs, c :: cs => by
    simp only [List.map_cons, List.cons.injEq, Json.str.injEq]
    rw [map_str_keys]

theorem chars_iff {v : Json} {cs : List Nat} :
    (∃ l, Settings.iterate v = .ok l ∧ l.mapM Json.ord = .ok cs) ↔ v.IsChars cs := by
  unfold Settings.iterate Json.IsChars
  cases v with
  | str s =>
    simp only [mapM_iff, ord_each, Except.ok.injEq, exists_eq_left', map_str_one, reduceCtorEq, Json.str.injEq, false_or, false_and,
      exists_false, or_false]
  | list l =>
    simp only [mapM_iff, ord_each, Except.ok.injEq, exists_eq_left', reduceCtorEq, Json.list.injEq, false_or, false_and,
      exists_false, or_false]
  | obj kvs =>
    simp only [mapM_iff, ord_each, Except.ok.injEq, exists_eq_left', reduceCtorEq, Json.obj.injEq, false_or, map_str_keys]
  | _ => simp

theorem classes_differ :
    (classDefault ≠ classProlonged) ∧ (classMeCab ≠ classSimple) ∧ (classNumeric ≠ classKatakana) := by decide

theorem marks_iff {j : Json} {v : Json} {marks : List Nat} (hc : j.Has "class" v) :
    marksOf j = .ok marks ↔
      (j.Lacks "prolongedSoundMarks" ∧ marks = []) ∨ ∃ v, j.Has "prolongedSoundMarks" v ∧ v.IsChars marks := by
  unfold marksOf
  rw [keyMarks_eq]
  obtain ⟨f1, f2⟩ := hc.find (key' := "prolongedSoundMarks")
  cases ho : j.opt (codes "prolongedSoundMarks") with
  | none =>
    dsimp only
    constructor
    · intro h; cases h; exact .inl ⟨f1 ho, rfl⟩
    · rintro (⟨_, rfl⟩ | ⟨w, hw, _⟩)
      · rfl
      · rw [hw.opt] at ho; cases ho
  | some w =>
    dsimp only
    constructor
    · intro h
      have h : (Settings.iterate w).bind (fun l => l.mapM Json.ord) = .ok marks := h
      exact .inr ⟨w, f2 w ho, chars_iff.mp (bind_ok_iff.mp h)⟩
    · rintro (⟨hl, _⟩ | ⟨w', hw, hcs⟩)
      · rw [hl.opt] at ho; cases ho
      · rw [hw.opt] at ho
        cases ho
        exact bind_ok_iff.mpr (chars_iff.mpr hcs)

theorem prolongedInit_iff {j : Json} {v : Json} {o : InputPluginObj} (hc : j.Has "class" v) :
    prolongedInit j = .ok o ↔ ∃ marks sym, o = .psm marks sym ∧
      ((j.Lacks "prolongedSoundMarks" ∧ marks = []) ∨ ∃ v, j.Has "prolongedSoundMarks" v ∧ v.IsChars marks) ∧
      ((j.Lacks "replacementSymbol" ∧ sym = [0x30FC]) ∨ j.Has "replacementSymbol" (.str sym)) := by
  obtain ⟨f1, f2⟩ := hc.find (key' := "replacementSymbol")
  unfold prolongedInit
  show Except.bind _ _ = _ ↔ _
  rw [bind_ok_iff]
  constructor
  · rintro ⟨marks, h1, h2⟩
    rw [marks_iff hc] at h1
    rw [keySymbol_eq] at h2
    cases ho : j.opt (codes "replacementSymbol") with
    | none => rw [ho] at h2; cases h2; exact ⟨marks, _, rfl, h1, .inl ⟨f1 ho, rfl⟩⟩
    | some w =>
      rw [ho] at h2
      cases w with
      | str s => cases h2; exact ⟨marks, s, rfl, h1, .inr (f2 _ ho)⟩
      | _ => cases h2
  · rintro ⟨marks, sym, rfl, h1, h2⟩
    refine ⟨marks, (marks_iff hc).mpr h1, ?_⟩
    rw [keySymbol_eq]
    rcases h2 with ⟨h2, rfl⟩ | h2 <;> rw [h2.opt] <;> rfl

theorem getInputPlugin_iff {j : Json} {o : InputPluginObj} : getInputPlugin j = .ok o ↔ InputWanted j o := by
  unfold getInputPlugin
  rw [keyToValue_ok, keyClass_eq]
  show Except.bind _ _ = _ ↔ _
  rw [bind_ok_iff]
  constructor
  · rintro ⟨v, h1, h2⟩
    rw [at_iff] at h1
    cases v with
    | str s =>
      dsimp only at h2
      split at h2
      · rename_i hs
        cases h2
        rw [hs, classDefault_eq] at h1
        exact h1
      · split at h2
        · rename_i _ hs
          obtain ⟨marks, sym, rfl, h3⟩ := (prolongedInit_iff h1).mp h2
          rw [hs, classProlonged_eq] at h1
          exact ⟨h1, h3⟩
        · cases h2
    | _ => cases h2
  · intro h
    cases o with
    | default => exact ⟨_, at_iff.mpr h, by dsimp only; rw [← classDefault_eq, if_pos rfl]; rfl⟩
    | psm marks sym =>
      refine ⟨_, at_iff.mpr h.1, ?_⟩
      dsimp only
      rw [← classProlonged_eq, if_neg (Ne.symm classes_differ.1), if_pos rfl]
      exact (prolongedInit_iff h.1).mpr ⟨marks, sym, rfl, h.2⟩

theorem getOovPlugin_iff {j : Json} {o : OovPluginObj} : getOovPlugin j = .ok o ↔ OovWanted j o := by
  unfold getOovPlugin
  rw [keyToValue_ok, keyClass_eq, keyCharDefName_eq, keyUnkDef_eq, keyLeftId_eq, keyRightId_eq, keyCost_eq, keyOovPOS_eq]
  show Except.bind _ _ = _ ↔ _
  rw [bind_ok_iff]
  constructor
  · rintro ⟨v, h1, h2⟩
    rw [at_iff] at h1
    cases v with
    | str s =>
      dsimp only at h2
      split at h2
      · rename_i hs
        rw [hs, classMeCab_eq] at h1
        obtain ⟨c, h3, h2⟩ := bind_ok h2
        obtain ⟨u, h4, h2⟩ := bind_ok h2
        cases h2
        exact ⟨h1, at_iff.mp h3, at_iff.mp h4⟩
      · split at h2
        · rename_i _ hs
          rw [hs, classSimple_eq] at h1
          obtain ⟨l, h3, h2⟩ := bind_ok h2
          obtain ⟨r, h4, h2⟩ := bind_ok h2
          obtain ⟨c, h5, h2⟩ := bind_ok h2
          obtain ⟨p, h6, h2⟩ := bind_ok h2
          obtain ⟨l', h7, h2⟩ := bind_ok h2
          obtain ⟨r', h8, h2⟩ := bind_ok h2
          obtain ⟨c', h9, h2⟩ := bind_ok h2
          cases h2
          exact ⟨h1, at_iff.mp h6, ⟨l, at_iff.mp h3, int_iff.mp h7⟩, ⟨r, at_iff.mp h4, int_iff.mp h8⟩, c, at_iff.mp h5, int_iff.mp h9⟩
        · cases h2
    | _ => cases h2
  · intro h
    cases o with
    | mecab c u =>
      refine ⟨_, at_iff.mpr h.1, ?_⟩
      dsimp only
      rw [← classMeCab_eq, if_pos rfl, at_iff.mpr h.2.1, at_iff.mpr h.2.2]
      rfl
    | simple l r c p =>
      obtain ⟨h1, h2, ⟨jl, h3, h4⟩, ⟨jr, h5, h6⟩, jc, h7, h8⟩ := h
      refine ⟨_, at_iff.mpr h1, ?_⟩
      dsimp only
      rw [← classSimple_eq, if_neg (Ne.symm classes_differ.2.1), if_pos rfl, at_iff.mpr h2, at_iff.mpr h3, at_iff.mpr h5, at_iff.mpr h7]
      dsimp only [bind, Except.bind]
      rw [int_iff.mpr h4, int_iff.mpr h6, int_iff.mpr h8]
      rfl

theorem truthy_iff {v : Json} {b : Bool} : v.truthy = b ↔ (b = false ↔ v.Empty) := by
  rw [← truthy_empty]
  cases b <;> cases v.truthy <;> simp

theorem getPathPlugin_iff {j : Json} {o : PathPluginObj} : getPathPlugin j = .ok o ↔ PathWanted j o := by
  unfold getPathPlugin
  rw [keyToValue_ok, keyClass_eq, keyNormalize_eq, keyMinLength_eq, keyOovPOS_eq]
  show Except.bind _ _ = _ ↔ _
  rw [bind_ok_iff]
  constructor
  · rintro ⟨v, h1, h2⟩
    rw [at_iff] at h1
    cases v with
    | str s =>
      dsimp only at h2
      split at h2
      · rename_i hs
        rw [hs, classNumeric_eq] at h1
        obtain ⟨f1, f2⟩ := h1.find (key' := "enableNormalize")
        cases ho : j.opt (codes "enableNormalize") with
        | none => rw [ho] at h2; cases h2; exact ⟨h1, .inl ⟨f1 ho, rfl⟩⟩
        | some w => rw [ho] at h2; cases h2; exact ⟨h1, .inr ⟨w, f2 w ho, truthy_iff.mp rfl⟩⟩
      · split at h2
        · rename_i _ hs
          rw [hs, classKatakana_eq] at h1
          obtain ⟨f1, f2⟩ := h1.find (key' := "minLength")
          obtain ⟨p, h3, h2⟩ := bind_ok h2
          cases ho : j.opt (codes "minLength") with
          | none => rw [ho] at h2; cases h2; exact ⟨h1, at_iff.mp h3, .inl ⟨f1 ho, rfl⟩⟩
          | some w =>
            rw [ho] at h2
            obtain ⟨n, h4, h2⟩ := bind_ok h2
            cases h2
            exact ⟨h1, at_iff.mp h3, .inr ⟨w, f2 w ho, int_iff.mp h4⟩⟩
        · cases h2
    | _ => cases h2
  · intro h
    cases o with
    | numeric b =>
      obtain ⟨h1, h2⟩ := h
      refine ⟨_, at_iff.mpr h1, ?_⟩
      dsimp only
      rw [← classNumeric_eq, if_pos rfl]
      rcases h2 with ⟨h2, rfl⟩ | ⟨v, h2, h3⟩
      · rw [h2.opt]; rfl
      · rw [h2.opt, ← truthy_iff.mpr h3]; rfl
    | katakana p m =>
      obtain ⟨h1, h2, h3⟩ := h
      refine ⟨_, at_iff.mpr h1, ?_⟩
      dsimp only
      rw [← classKatakana_eq, if_neg (Ne.symm classes_differ.2.2), if_pos rfl, at_iff.mpr h2]
      dsimp only [bind, Except.bind]
      rcases h3 with ⟨h3, rfl⟩ | ⟨v, h3, h4⟩
      · rw [h3.opt]; rfl
      · rw [h3.opt]; dsimp only; rw [int_iff.mpr h4]; rfl

theorem getPlugins_iff {α : Type} {d : JDict} {key : String} {get : Json → Res α} {Wanted : Json → α → Prop}
    (hg : ∀ j o, get j = .ok o ↔ Wanted j o) (hstr : ∀ s o, ¬ Wanted (.str s) o) {objs : List α} :
    getPlugins d (codes key) get = .ok objs ↔ Plugins d key Wanted objs := by
  have hw : ∀ {l : List Json} {m : List α}, l.mapM get = .ok m ↔ Each Wanted l m := fun {l m} => by
    rw [mapM_iff]; exact Each.congr (fun a b => hg a b)
  unfold getPlugins Plugins
  constructor
  · intro h
    cases hf : d.find (codes key) with
    | none => rw [hf] at h; cases h; exact .inl ⟨JDict.find_silent.mp hf, rfl⟩
    | some v =>
      rw [hf] at h
      have h : (Settings.iterate v).bind (fun l => l.mapM get) = .ok objs := h
      obtain ⟨l, h1, h2⟩ := bind_ok_iff.mp h
      rw [hw] at h2
      have hs := JDict.find_says.mp hf
      unfold Settings.iterate at h1
      cases v with
      | list js => cases h1; exact .inr (.inl ⟨_, hs, h2⟩)
      | str s =>
        cases h1
        cases s with
        | nil => cases h2; exact .inr (.inr ⟨.inl hs, rfl⟩)
        | cons c s => cases h2 with | cons h3 _ => exact absurd h3 (hstr _ _)
      | obj kvs =>
        cases h1
        cases kvs with
        | nil => cases h2; exact .inr (.inr ⟨.inr hs, rfl⟩)
        | cons c s => cases h2 with | cons h3 _ => exact absurd h3 (hstr _ _)
      | _ => cases h1
  · rintro (⟨h, rfl⟩ | ⟨js, h, h'⟩ | ⟨h | h, rfl⟩)
    · rw [JDict.find_silent.mpr h]; rfl
    · rw [JDict.find_says.mpr h]
      show js.mapM get = _
      exact hw.mpr h'
    · rw [JDict.find_says.mpr h]; rfl
    · rw [JDict.find_says.mpr h]; rfl

theorem inputPlugins_iff {d : JDict} {objs : List InputPluginObj} :
    getPlugins d keyInputPlugins getInputPlugin = .ok objs ↔ Plugins d "inputTextPlugin" InputWanted objs := by
  rw [keyInputPlugins_eq]
  refine getPlugins_iff (fun j o => getInputPlugin_iff) ?_
  intro s o h
  cases o with
  | default => obtain ⟨d, h, _⟩ := h; cases h
  | psm => obtain ⟨⟨d, h, _⟩, _⟩ := h; cases h

theorem oovPlugins_iff {d : JDict} {objs : List OovPluginObj} :
    getPlugins d keyOovPlugins getOovPlugin = .ok objs ↔ Plugins d "oovProviderPlugin" OovWanted objs := by
  rw [keyOovPlugins_eq]
  refine getPlugins_iff (fun j o => getOovPlugin_iff) ?_
  intro s o h
  cases o <;> · obtain ⟨⟨d, h, _⟩, _⟩ := h; cases h

theorem pathPlugins_iff {d : JDict} {objs : List PathPluginObj} :
    getPlugins d keyPathPlugins getPathPlugin = .ok objs ↔ Plugins d "pathRewritePlugin" PathWanted objs := by
  rw [keyPathPlugins_eq]
  refine getPlugins_iff (fun j o => getPathPlugin_iff) ?_
  intro s o h
  cases o <;> · obtain ⟨⟨d, h, _⟩, _⟩ := h; cases h

/-! ### Set-up -/

theorem read_ok {M : Disk} {α : Type} {loop : List PStr → Res α} {path : PStr} {a : α} :
    M.read loop path = .ok a ↔ ∃ ls, M.HasLines path ls ∧ loop ls = .ok a := by
  unfold Disk.read Disk.HasLines
  constructor
  · intro h
    obtain ⟨b, h1, h⟩ := bind_ok h
    obtain ⟨a', h2, h⟩ := bind_ok h
    obtain ⟨u, h3, h⟩ := bind_ok h
    cases h
    exact ⟨_, ⟨b, h1, (C90_at_once b _).mp (Prod.ext rfl h3)⟩, h2⟩
  · rintro ⟨ls, ⟨b, h1, h2⟩, h3⟩
    rw [← C90_at_once] at h2
    rw [h1]
    dsimp only [bind, Except.bind]
    rw [h2]
    dsimp only
    rw [h3]
    rfl

theorem joinPath_eq (dir p : PStr) : joinPath dir p = toAbsoluteResourcePath dir p := by
  unfold toAbsoluteResourcePath joinPath
  split <;> rfl

theorem joins_iff {dir p r : PStr} : joinPath dir p = r ↔ Resolves dir p r := by
  rw [joinPath_eq]
  exact ⟨fun h => h ▸ resolve_ok dir p, fun h => (resolve_only h).symm⟩

theorem joinJson_iff {dir : PStr} {v : Json} {r : PStr} : joinJson dir v = .ok r ↔ ∃ p, v = .str p ∧ Resolves dir p r := by
  unfold joinJson
  cases v with
  | str s => simp [joins_iff]
  | _ => simp

theorem defined_iff {M : Disk} {α : Type} {loop : List PStr → Res α} {path : PStr} {a : α} :
    M.readDefined loop path = .ok a ↔ path ≠ [] ∧ ∃ ls, M.HasLines path ls ∧ loop ls = .ok a := by
  unfold Disk.readDefined
  cases path with
  | nil => simp
  | cons c cs => simp [read_ok]

theorem inputReady_iff {M : Disk} {o : InputPluginObj} {p : InputPlugin} : o.setUp M = .ok p ↔ InputReady M o p := by
  unfold InputPluginObj.setUp
  cases o with
  | default =>
    dsimp only
    show Except.bind _ _ = _ ↔ _
    rw [bind_ok_iff]
    constructor
    · rintro ⟨tb, h1, h2⟩
      cases h2
      obtain ⟨ls, h1, h3⟩ := read_ok.mp h1
      exact ⟨_, ls, joins_iff.mp (rewriteDef_eq ▸ rfl), h1, h3⟩
    · intro h
      cases p with
      | default tb =>
        obtain ⟨path, ls, h1, h2, h3⟩ := h
        refine ⟨tb, ?_, rfl⟩
        rw [rewriteDef_eq, joins_iff.mpr h1]
        exact read_ok.mpr ⟨ls, h2, h3⟩
      | psm => exact h.elim
  | psm marks sym =>
    dsimp only
    constructor
    · intro h; cases h; exact ⟨rfl, rfl⟩
    · intro h
      cases p with
      | default tb => exact h.elim
      | psm m s => obtain ⟨rfl, rfl⟩ := h; rfl

theorem strs_iff : ∀ {l : List Json} {pos : List PStr}, Json.strs l = some pos ↔ l = pos.map .str
  | [], pos => by cases pos <;> simp [Json.strs]
  | j :: l, pos => by
    cases j with
    | str s =>
      rw [Json.strs, Option.map_eq_some_iff]
      constructor
      · rintro ⟨a, h1, rfl⟩; rw [List.map_cons, strs_iff.mp h1]
      · intro h
        cases pos with
        | nil => cases h
        | cons q pos =>
          rw [List.map_cons] at h
          injection h with h1 h2
          injection h1 with h1
          exact ⟨pos, strs_iff.mpr h2, by rw [h1]⟩
    | _ =>
      rw [Json.strs]
      · constructor
        · intro h; cases h
        · intro h; cases pos <;> cases h
      · intro s h; cases h

theorem posIdOf_iff {g : Grammar} {p : Json} {n : Int} :
    posIdOf g p = n ↔ (∃ pos, p.IsPos pos ∧ PosNumber g.posList pos n) ∨ (n = -1 ∧ ∀ pos, ¬ p.IsPos pos) := by
  unfold posIdOf Json.IsPos
  cases p with
  | list l =>
    dsimp only
    cases hs : Json.strs l with
    | some pos =>
      dsimp only
      rw [← posNumber_iff]
      have := strs_iff.mp hs
      constructor
      · intro h; exact .inl ⟨pos, by rw [this], h⟩
      · rintro (⟨pos', h, h'⟩ | ⟨_, h⟩)
        · injection h with h
          have := strs_iff.mpr h
          rw [hs] at this
          cases this
          exact h'
        · exact absurd (by rw [this]) (h pos)
    | none =>
      dsimp only
      constructor
      · intro h; exact .inr ⟨h.symm, fun pos hp => by injection hp with hp; rw [strs_iff.mpr hp] at hs; cases hs⟩
      · rintro (⟨pos, h, _⟩ | ⟨h, _⟩)
        · injection h with h; rw [strs_iff.mpr h] at hs; cases hs
        · exact h.symm
  | _ => simp [eq_comm]

theorem oovReady_iff {R : Runtime} {M : Disk} {dir : PStr} {g : Grammar} {o : OovPluginObj} {p : OovPlugin} :
    o.setUp M R.others dir g = .ok p ↔ OovReady R M dir g o p := by
  unfold OovPluginObj.setUp
  cases o with
  | mecab c u =>
    dsimp only
    constructor
    · intro h
      obtain ⟨cp, h1, h⟩ := bind_ok h
      obtain ⟨cats, h2, h⟩ := bind_ok h
      obtain ⟨up, h4, h⟩ := bind_ok h
      obtain ⟨oovs, h5, h⟩ := bind_ok h
      cases h
      obtain ⟨cn, rfl, h1'⟩ := joinJson_iff.mp h1
      obtain ⟨un, rfl, h4'⟩ := joinJson_iff.mp h4
      obtain ⟨h2, ls, h2', h3⟩ := defined_iff.mp h2
      obtain ⟨h5, us, h5', h6⟩ := defined_iff.mp h5
      refine ⟨cn, un, cp, up, ls, us, rfl, rfl, h1', h4', h2, h5, h2', h5', ?_⟩
      unfold mecabSetUp
      rw [h3]
      dsimp only [bind, Except.bind]
      rw [h6]
      rfl
    · rintro ⟨cn, un, cp, up, ls, us, rfl, rfl, h1, h4, h2, h5, h2', h5', h⟩
      unfold mecabSetUp at h
      obtain ⟨cats, h3, h⟩ := bind_ok h
      obtain ⟨oovs, h6, h⟩ := bind_ok h
      cases h
      rw [joinJson_iff.mpr ⟨cn, rfl, h1⟩]
      dsimp only [bind, Except.bind]
      rw [defined_iff.mpr ⟨h2, ls, h2', h3⟩]
      dsimp only
      rw [joinJson_iff.mpr ⟨un, rfl, h4⟩]
      dsimp only
      rw [defined_iff.mpr ⟨h5, us, h5', h6⟩]
      rfl
  | simple l r c q =>
    dsimp only
    constructor
    · intro h; cases h; exact ⟨rfl, rfl, rfl, posIdOf_iff.mp rfl⟩
    · intro h
      cases p with
      | mecab => exact h.elim
      | simple e =>
        obtain ⟨l', r', c', i⟩ := e
        obtain ⟨rfl, rfl, rfl, h⟩ := h
        rw [posIdOf_iff.mpr h]; rfl

theorem pathReady_iff {g : Grammar} {o : PathPluginObj} {p : PathPlugin} : o.setUp g = .ok p ↔ PathReady g o p := by
  unfold PathPluginObj.setUp
  cases o with
  | numeric b =>
    dsimp only
    rw [numericPos_eq]
    constructor
    · intro h; cases h; exact ⟨rfl, posNumber_iff.mpr rfl⟩
    · intro h
      cases p with
      | numeric c =>
        obtain ⟨i, n⟩ := c
        obtain ⟨rfl, h⟩ := h
        rw [posNumber_iff.mp h]; rfl
      | katakana => exact h.elim
  | katakana q m =>
    dsimp only
    constructor
    · intro h
      split at h
      · cases h
      · rename_i ht
        split at h
        · cases h
        · rename_i hp
          cases h
          have h0 : 0 ≤ posIdOf g q := by omega
          refine ⟨rfl, ?_⟩
          rcases posIdOf_iff.mp (rfl : posIdOf g q = _) with ⟨pos, h1, h2⟩ | ⟨h1, _⟩
          · refine ⟨pos, ?_, h1, h2, h0⟩
            rintro rfl
            have h1 : q = .list [] := h1
            subst h1
            exact ht rfl
          · omega
    · intro h
      cases p with
      | numeric c => exact h.elim
      | katakana c =>
        obtain ⟨i, n⟩ := c
        obtain ⟨rfl, pos, hne, h1, h2, h3⟩ := h
        have hi := posIdOf_iff.mpr (.inl ⟨pos, h1, h2⟩)
        rw [if_neg, if_neg, hi]
        · rfl
        · show ¬ _ < _
          rw [hi]
          have h3 : (0 : Int) ≤ i := h3
          show ¬ i < 0
          omega
        · have h1 : q = .list (pos.map .str) := h1
          subst h1
          cases pos with
          | nil => exact absurd rfl hne
          | cons => simp [Json.truthy]

/-! ### User dictionaries -/

theorem openUsers_iff {M : Disk} {cfg : DictConfig} : ∀ {ps : List PStr} {d dict : Dict},
    d.openUsers M cfg ps = .ok dict ↔ ∃ files, Each (fun p b => M.file p = .ok b) ps files ∧ d.readUsers cfg files = .ok dict
  | [], d, dict => by
    rw [Dict.openUsers]
    constructor
    · intro h; exact ⟨[], .nil, by rw [Dict.readUsers]; exact h⟩
    · rintro ⟨_, h1, h2⟩; cases h1; rw [Dict.readUsers] at h2; exact h2
  | p :: ps, d, dict => by
    rw [Dict.openUsers]
    constructor
    · intro h
      split at h
      · cases h
      · obtain ⟨b, h5, h⟩ := bind_ok h
        obtain ⟨d', h6, h2⟩ := bind_ok h
        obtain ⟨files, h3, h4⟩ := openUsers_iff.mp h2
        refine ⟨b :: files, .cons h5 h3, ?_⟩
        rw [Dict.readUsers, h6]
        exact h4
    · rintro ⟨_, h1, h2⟩
      cases h1 with
      | cons h1 h3 =>
        rw [Dict.readUsers] at h2
        obtain ⟨d', h4, h5⟩ := bind_ok h2
        have hf : ¬ d.set.isFull = true := by
          intro hf
          unfold Dict.readUser at h4
          rw [if_pos hf] at h4; cases h4
        rw [if_neg hf, h1]
        dsimp only [bind, Except.bind]
        rw [h4]
        exact openUsers_iff.mpr ⟨_, h3, h5⟩

end Sudachi
