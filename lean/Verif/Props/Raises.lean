/-
C88: what opening a dictionary raises.
-/
import Verif.Props.Open
import Verif.Lemmas.SampleTerminal
import Verif.Spec.Raises
import Verif.Lemmas.Dictionary
namespace Sudachi

theorem next_iff {α β : Type} {r : Res α} {k : α → Res β} {A : α → Prop} {F : Err → Prop} {K : α → Err → Prop} {e : Err}
    (h1 : ∀ a, r = .ok a ↔ A a) (h2 : ∀ e, r = .error e ↔ F e) (h3 : ∀ a e, k a = .error e ↔ K a e) :
    (r >>= k) = .error e ↔ Next A F K e := by
  unfold Next
  cases r with
  | error x =>
    constructor
    · intro h
      cases h
      exact .inl ((h2 _).mp rfl)
    · rintro (h | ⟨a, h, _⟩)
      · rw [← h2] at h; cases h; rfl
      · rw [← h1] at h; cases h
  | ok a =>
    constructor
    · intro h
      exact .inr ⟨a, (h1 a).mp rfl, (h3 a e).mp h⟩
    · rintro (h | ⟨b, h, h'⟩)
      · rw [← h2] at h; cases h
      · rw [← h1] at h; cases h; exact (h3 a e).mpr h'

theorem firstFails_iff {α β : Type} {f : α → Res β} {G : α → β → Prop} {F : α → Err → Prop} (h1 : ∀ a b, f a = .ok b ↔ G a b) :
    ∀ {l : List α} {e : Err}, (∀ a ∈ l, ∀ e, f a = .error e ↔ F a e) → (l.mapM f = .error e ↔ FirstFails G F l e)
  | [], e, _ => by
    rw [List.mapM_nil]
    constructor
    · intro h; cases h
    · rintro ⟨pre, a, post, bs, h, _⟩
      cases pre <;> cases h
  | a :: l, e, h2 => by
    rw [List.mapM_cons]
    have ih := firstFails_iff (f := f) h1 (l := l) (e := e) (fun a ha => h2 a (by simp [ha]))
    cases hf : f a with
    | error x =>
      constructor
      · intro h
        cases h
        exact ⟨[], a, l, [], rfl, .nil, (h2 a (by simp) _).mp hf⟩
      · rintro ⟨pre, a', post, bs, h, hg, hF⟩
        cases hg with
        | nil =>
          cases h
          rw [← h2 a (by simp), hf] at hF
          cases hF
          rfl
        | cons g _ =>
          cases h
          rw [← h1, hf] at g
          cases g
    | ok b =>
      have hb : (Except.ok b >>= fun r => (l.mapM f >>= fun rs => pure (r :: rs))) = .error e ↔ l.mapM f = .error e := by
        show (l.mapM f >>= fun rs => pure (b :: rs)) = _ ↔ _
        cases l.mapM f with
        | error x => exact ⟨fun h => by cases h; rfl, fun h => by cases h; rfl⟩
        | ok bs => exact ⟨fun h => (by cases h), fun h => (by cases h)⟩
      rw [hb, ih]
      constructor
      · rintro ⟨pre, a', post, bs, rfl, hg, hF⟩
        exact ⟨a :: pre, a', post, b :: bs, rfl, .cons ((h1 _ _).mp hf) hg, hF⟩
      · rintro ⟨pre, a', post, bs, h, hg, hF⟩
        cases hg with
        | nil =>
          cases h
          rw [← h2 a (by simp), hf] at hF
          cases hF
        | cons g hg =>
          cases h
          exact ⟨_, a', post, _, rfl, hg, hF⟩

/-- Either or. -/
theorem Json.has_or_lacks {j : Json} {v : Json} (hc : j.Has "class" v) (k : String) : (∃ w, j.Has k w) ∨ j.Lacks k := by
  obtain ⟨d, rfl, _⟩ := hc
  cases hf : JDict.find d (codes k) with
  | none => exact .inr ⟨d, rfl, JDict.find_silent.mp hf⟩
  | some w => exact .inl ⟨w, d, rfl, JDict.find_says.mp hf⟩

theorem Json.class_cases (j : Json) : (∀ d, j ≠ .obj d) ∨ j.Lacks "class" ∨ ∃ v, j.Has "class" v := by
  by_cases h : ∃ d, j = .obj d
  · obtain ⟨d, rfl⟩ := h
    cases hf : JDict.find d (codes "class") with
    | none => exact .inr (.inl ⟨d, rfl, JDict.find_silent.mp hf⟩)
    | some w => exact .inr (.inr ⟨w, d, rfl, JDict.find_says.mp hf⟩)
  · exact .inl fun d hd => h ⟨d, hd⟩

/-- From totality of the specification to the exact exceptions. -/
theorem refused_iff {α : Type} {r : Res α} {W : α → Prop} {F : Err → Prop} (h1 : ∀ a, r = .ok a ↔ W a) (h2 : ∀ e, F e → r = .error e)
    (h3 : (∃ a, W a) ∨ ∃ e, F e) (e : Err) : r = .error e ↔ F e := by
  refine ⟨fun h => ?_, h2 e⟩
  rcases h3 with ⟨a, h3⟩ | ⟨x, h3⟩
  · rw [(h1 a).mpr h3] at h; cases h
  · have := h2 x h3
    rw [h] at this
    cases this
    exact h3

theorem marks_raise {j v w : Json} (hc : j.Has "class" v) (hm : j.Has "prolongedSoundMarks" w) (hw : ∀ cs, ¬ w.IsChars cs) :
    prolongedInit j = .error .type := by
  have h1 : ∀ cs, marksOf j ≠ .ok cs := by
    intro cs h
    rcases (marks_iff hc).mp h with ⟨hl, _⟩ | ⟨w', h1, h2⟩
    · have := hl.opt; rw [hm.opt] at this; cases this
    · have := h1.opt
      rw [hm.opt] at this
      cases this
      exact hw _ h2
  have hord : ∀ (l : List Json) x, l.mapM Json.ord = .error x → x = .type := by
    intro l
    induction l with
    | nil => intro x hx; cases hx
    | cons a l ih =>
      intro x hx
      rw [List.mapM_cons] at hx
      cases h1 : Json.ord a with
      | error y =>
        rw [h1] at hx
        cases hx
        unfold Json.ord at h1
        split at h1 <;> cases h1; rfl
      | ok c =>
        rw [h1] at hx
        have hx : (l.mapM Json.ord).bind _ = _ := hx
        cases h2 : l.mapM Json.ord with
        | error y => rw [h2] at hx; cases hx; exact ih _ h2
        | ok cs => rw [h2] at hx; cases hx
  have h2 : marksOf j = .error .type := by
    cases hj : marksOf j with
    | ok cs => exact absurd hj (h1 cs)
    | error x =>
      unfold marksOf at hj
      rw [keyMarks_eq, hm.opt] at hj
      have hj : (Settings.iterate w).bind (fun l => l.mapM Json.ord) = .error x := hj
      cases hi : Settings.iterate w with
      | error y =>
        rw [hi] at hj
        cases hj
        unfold Settings.iterate at hi
        split at hi <;> cases hi
        rfl
      | ok l =>
        rw [hi] at hj
        rw [hord _ _ hj]
  unfold prolongedInit
  rw [h2]
  rfl

/-- **C88** What an object under `inputTextPlugin` raises. -/
theorem C88_input (j : Json) (hj : j.Typed) (e : Err) : getInputPlugin j = .error e ↔ InputRefused j e := by
  obtain ⟨k1, k2, k3⟩ := C68_class_refused j
  refine refused_iff (fun a => getInputPlugin_iff) ?_ ?_ e
  · rintro e ((⟨h, rfl⟩ | ⟨rfl, h | ⟨v, h, hn⟩ | ⟨n, hn, _, k, hk, _⟩⟩) | ⟨rfl, hc, w, hm, hw⟩)
    · exact (k1 h).1
    · exact (k2 h).1
    · exact (k3 v h).1 (hn _ (.head _)) (hn _ (.tail _ (.head _)))
    · simp only [List.mem_cons, List.not_mem_nil, or_false] at hn
      rcases hn with rfl | rfl <;> cases hk
    · have h1 := at_iff.mpr hc
      rw [← keyClass_eq, ← classProlonged_eq] at h1
      unfold getInputPlugin
      rw [h1]
      dsimp only [bind, Except.bind]
      rw [if_neg (by decide +kernel), if_pos rfl, marks_raise hc hm hw]
      rfl
  · rcases j.class_cases with h | h | ⟨v, h⟩
    · exact .inr ⟨_, .inl (.inl ⟨h, rfl⟩)⟩
    · exact .inr ⟨_, .inl (.inr ⟨rfl, .inl h⟩)⟩
    · by_cases hd : v = .str (codes "sudachipy.plugin.input_text.DefaultInputTextPlugin")
      · subst hd; exact .inl ⟨.default, h⟩
      · by_cases hp : v = .str (codes "sudachipy.plugin.input_text.ProlongedSoundMarkInputTextPlugin")
        · subst hp
          have hs : ∃ sym, (j.Lacks "replacementSymbol" ∧ sym = [0x30FC]) ∨ j.Has "replacementSymbol" (.str sym) := by
            rcases j.has_or_lacks h "replacementSymbol" with ⟨w, hw⟩ | hl
            · obtain ⟨s, rfl⟩ := hj.1 w hw
              exact ⟨s, .inr hw⟩
            · exact ⟨_, .inl ⟨hl, rfl⟩⟩
          obtain ⟨sym, hs⟩ := hs
          rcases j.has_or_lacks h "prolongedSoundMarks" with ⟨w, hw⟩ | hl
          · by_cases hcs : ∃ cs, w.IsChars cs
            · obtain ⟨cs, hcs⟩ := hcs
              exact .inl ⟨.psm cs sym, h, .inr ⟨w, hw, hcs⟩, hs⟩
            · exact .inr ⟨_, .inr ⟨rfl, h, w, hw, fun cs hc => hcs ⟨cs, hc⟩⟩⟩
          · exact .inl ⟨.psm [] sym, h, .inl ⟨hl, rfl⟩, hs⟩
        · refine .inr ⟨_, .inl (.inr ⟨rfl, .inr (.inl ⟨v, h, ?_⟩)⟩)⟩
          intro n hn
          simp only [List.mem_cons, List.not_mem_nil, or_false] at hn
          rcases hn with rfl | rfl
          · exact hd
          · exact hp

/-- **C88** What an object under `oovProviderPlugin` raises. -/
theorem C88_oov (j : Json) (hj : j.Typed) (e : Err) : getOovPlugin j = .error e ↔ OovRefused j e := by
  obtain ⟨k1, k2, k3⟩ := C68_class_refused j
  obtain ⟨q1, q2, _⟩ := C68_key_refused j
  refine refused_iff (fun a => getOovPlugin_iff) ?_ ?_ e
  · rintro e (⟨h, rfl⟩ | ⟨rfl, h | ⟨v, h, hn⟩ | ⟨n, hn, hc, k, hk, hl⟩⟩)
    · exact (k1 h).2.1
    · exact (k2 h).2.1
    · exact (k3 v h).2.1 (hn _ (.head _)) (hn _ (.tail _ (.head _)))
    · simp only [List.mem_cons, List.not_mem_nil, or_false] at hn
      rcases hn with rfl | rfl
      · simp only [List.mem_cons, List.not_mem_nil, or_false] at hk
        rcases hk with rfl | rfl
        · exact q1 hc (.inl hl)
        · exact q1 hc (.inr hl)
      · simp only [List.mem_cons, List.not_mem_nil, or_false] at hk
        rcases hk with rfl | rfl | rfl | rfl
        · exact q2 hc (.inl hl)
        · exact q2 hc (.inr (.inl hl))
        · exact q2 hc (.inr (.inr (.inl hl)))
        · exact q2 hc (.inr (.inr (.inr hl)))
  · rcases j.class_cases with h | h | ⟨v, h⟩
    · exact .inr ⟨_, .inl ⟨h, rfl⟩⟩
    · exact .inr ⟨_, .inr ⟨rfl, .inl h⟩⟩
    · by_cases hm : v = .str (codes "sudachipy.plugin.oov.MeCabOovProviderPlugin")
      · subst hm
        have miss : ∀ k ∈ ["charDef", "unkDef"], j.Lacks k → ∃ e, OovRefused j e := fun k hk hl =>
          ⟨_, .inr ⟨rfl, .inr (.inr ⟨_, .head _, h, k, hk, hl⟩)⟩⟩
        rcases j.has_or_lacks h "charDef" with ⟨c, hc⟩ | hl
        · rcases j.has_or_lacks h "unkDef" with ⟨u, hu⟩ | hl
          · exact .inl ⟨.mecab c u, h, hc, hu⟩
          · exact .inr (miss _ (by simp) hl)
        · exact .inr (miss _ (by simp) hl)
      · by_cases hs : v = .str (codes "sudachipy.plugin.oov.SimpleOovProviderPlugin")
        · subst hs
          have miss : ∀ k ∈ ["leftId", "rightId", "cost", "oovPOS"], j.Lacks k → ∃ e, OovRefused j e := fun k hk hl =>
            ⟨_, .inr ⟨rfl, .inr (.inr ⟨_, .tail _ (.head _), h, k, hk, hl⟩)⟩⟩
          rcases j.has_or_lacks h "leftId" with ⟨l, hl⟩ | hl
          · rcases j.has_or_lacks h "rightId" with ⟨r, hr⟩ | hr
            · rcases j.has_or_lacks h "cost" with ⟨c, hc⟩ | hc
              · rcases j.has_or_lacks h "oovPOS" with ⟨p, hp⟩ | hp
                · obtain ⟨l', hl'⟩ := hj.2 _ (by simp) l hl
                  obtain ⟨r', hr'⟩ := hj.2 _ (by simp) r hr
                  obtain ⟨c', hc'⟩ := hj.2 _ (by simp) c hc
                  exact .inl ⟨.simple l' r' c' p, h, hp, ⟨l, hl, hl'⟩, ⟨r, hr, hr'⟩, c, hc, hc'⟩
                · exact .inr (miss _ (by simp) hp)
              · exact .inr (miss _ (by simp) hc)
            · exact .inr (miss _ (by simp) hr)
          · exact .inr (miss _ (by simp) hl)
        · refine .inr ⟨_, .inr ⟨rfl, .inr (.inl ⟨v, h, ?_⟩)⟩⟩
          intro n hn
          simp only [List.mem_cons, List.not_mem_nil, or_false] at hn
          rcases hn with rfl | rfl
          · exact hm
          · exact hs

/-- **C88** What an object under `pathRewritePlugin` raises. -/
theorem C88_path (j : Json) (hj : j.Typed) (e : Err) : getPathPlugin j = .error e ↔ PathRefused j e := by
  obtain ⟨k1, k2, k3⟩ := C68_class_refused j
  obtain ⟨_, _, q3⟩ := C68_key_refused j
  refine refused_iff (fun a => getPathPlugin_iff) ?_ ?_ e
  · rintro e (⟨h, rfl⟩ | ⟨rfl, h | ⟨v, h, hn⟩ | ⟨n, hn, hc, k, hk, hl⟩⟩)
    · exact (k1 h).2.2
    · exact (k2 h).2.2
    · exact (k3 v h).2.2 (hn _ (.head _)) (hn _ (.tail _ (.head _)))
    · simp only [List.mem_cons, List.not_mem_nil, or_false] at hn
      rcases hn with rfl | rfl
      · cases hk
      · simp only [List.mem_cons, List.not_mem_nil, or_false] at hk
        subst hk
        exact q3 hc hl
  · rcases j.class_cases with h | h | ⟨v, h⟩
    · exact .inr ⟨_, .inl ⟨h, rfl⟩⟩
    · exact .inr ⟨_, .inr ⟨rfl, .inl h⟩⟩
    · by_cases hn : v = .str (codes "sudachipy.plugin.path_rewrite.JoinNumericPlugin")
      · subst hn
        rcases j.has_or_lacks h "enableNormalize" with ⟨w, hw⟩ | hl
        · exact .inl ⟨.numeric w.truthy, h, .inr ⟨w, hw, truthy_iff.mp rfl⟩⟩
        · exact .inl ⟨.numeric true, h, .inl ⟨hl, rfl⟩⟩
      · by_cases hk : v = .str (codes "sudachipy.plugin.path_rewrite.JoinKatakanaOovPlugin")
        · subst hk
          rcases j.has_or_lacks h "oovPOS" with ⟨p, hp⟩ | hp
          · rcases j.has_or_lacks h "minLength" with ⟨w, hw⟩ | hl
            · obtain ⟨n, hn⟩ := hj.2 _ (by simp) w hw
              exact .inl ⟨.katakana p n, h, hp, .inr ⟨w, hw, hn⟩⟩
            · exact .inl ⟨.katakana p 1, h, hp, .inl ⟨hl, rfl⟩⟩
          · exact .inr ⟨_, .inr ⟨rfl, .inr (.inr ⟨_, .tail _ (.head _), h, _, .head _, hp⟩)⟩⟩
        · refine .inr ⟨_, .inr ⟨rfl, .inr (.inl ⟨v, h, ?_⟩)⟩⟩
          intro n hn'
          simp only [List.mem_cons, List.not_mem_nil, or_false] at hn'
          rcases hn' with rfl | rfl
          · exact hn
          · exact hk

theorem pluginsFail_iff {α : Type} {d : JDict} {key : String} {get : Json → Res α} {W : Json → α → Prop} {F : Json → Err → Prop}
    (h1 : ∀ j o, get j = .ok o ↔ W j o) (h2 : ∀ js, Says d (codes key) (.list js) → ∀ j ∈ js, ∀ e, get j = .error e ↔ F j e)
    (hstr : ∀ s, get (.str s) = .error .type) {e : Err} : getPlugins d (codes key) get = .error e ↔ PluginsFail d key W F e := by
  unfold getPlugins PluginsFail
  cases hf : d.find (codes key) with
  | none =>
    dsimp only
    have hs := JDict.find_silent.mp hf
    constructor
    · intro h; cases h
    · rintro (⟨js, h, _⟩ | ⟨_, v, h, _⟩) <;>
      · rw [JDict.find_says.mpr h] at hf; cases hf
  | some v =>
    dsimp only
    have hs := JDict.find_says.mp hf
    have uniq : ∀ {w}, Says d (codes key) w → w = v := by
      intro w h
      rw [JDict.find_says.mpr h] at hf
      cases hf; rfl
    by_cases hl : ∃ js, v = .list js
    · obtain ⟨js, rfl⟩ := hl
      show js.mapM get = .error e ↔ _
      rw [firstFails_iff (G := W) (F := F) h1 (h2 js hs)]
      constructor
      · intro h; exact .inl ⟨js, hs, h⟩
      · rintro (⟨js', h, h'⟩ | ⟨_, w, h, h', _⟩)
        · cases uniq h; exact h'
        · exact absurd (uniq h) (h' js)
    · have first : ∀ (s : PStr) (l : List Json), (Json.str s :: l).mapM get = .error .type := by
        intro s l
        rw [List.mapM_cons, hstr]
        rfl
      have other : (e = .type ∧ v ≠ .str [] ∧ v ≠ .obj []) ↔ ((Settings.iterate v) >>= fun l => l.mapM get) = .error e := by
        cases v with
        | list js => exact absurd ⟨js, rfl⟩ hl
        | str s =>
          cases s with
          | nil => simp [Settings.iterate, bind, Except.bind, pure, Except.pure]
          | cons c cs =>
            show _ ↔ ((Json.str [c]) :: cs.map (fun c => Json.str [c])).mapM get = _
            rw [first]
            simp [eq_comm]
        | obj kvs =>
          cases kvs with
          | nil => simp [Settings.iterate, bind, Except.bind, pure, Except.pure]
          | cons kv kvs =>
            show _ ↔ ((Json.str kv.1) :: kvs.map (fun kv => Json.str kv.1)).mapM get = _
            rw [first]
            simp [eq_comm]
        | _ => simp [Settings.iterate, bind, Except.bind, eq_comm]
      rw [← other]
      constructor
      · rintro ⟨rfl, h3, h4⟩
        exact .inr ⟨rfl, v, hs, fun js h => hl ⟨js, h⟩, h3, h4⟩
      · rintro (⟨js, h, _⟩ | ⟨rfl, w, h, _, h3, h4⟩)
        · exact absurd ⟨js, (uniq h).symm⟩ hl
        · rw [← uniq h]
          exact ⟨rfl, h3, h4⟩

theorem readFails_iff {M : Disk} {α : Type} {loop : List PStr → Res α} {path : PStr} {e : Err} :
    M.read loop path = .error e ↔ M.ReadFails loop path e := by
  unfold Disk.read Disk.ReadFails Disk.HasLines
  cases hf : M.file path with
  | error x =>
    show (Except.error x : Res α) = .error e ↔ (Except.error x : Res Bytes) = .error e ∨ _
    constructor
    · intro h; cases h; exact .inl rfl
    · rintro (h | ⟨ls, ⟨b, h, _⟩, _⟩ | ⟨b, ls, h, _⟩)
      · cases h; rfl
      · cases h
      · cases h
  | ok b =>
    show (loop (streamLines b).1 >>= fun a => (streamLines b).2 >>= fun _ => pure a) = _ ↔ _
    cases hs : streamLines b with
    | mk ls r =>
    cases r with
    | ok u =>
      have hl := (C90_at_once b ls).mp hs
      have key : (loop ls >>= fun a => (Except.ok u : Res Unit) >>= fun _ => pure a) = .error e ↔ loop ls = .error e := by
        cases loop ls with
        | error x => exact Iff.rfl
        | ok a => exact ⟨fun h => (by cases h), fun h => (by cases h)⟩
      rw [key]
      constructor
      · intro h; exact .inr (.inl ⟨ls, ⟨b, rfl, hl⟩, h⟩)
      · rintro (h | ⟨ls', ⟨b', h, h1⟩, h2⟩ | ⟨b', ls', h, h1, _⟩)
        · cases h
        · cases h
          rw [hl] at h1
          cases h1
          exact h2
        · cases h
          have := ((C90_file b ls').2 .unicode).mpr ⟨rfl, h1⟩
          rw [hs] at this
          cases this
    | error x =>
      obtain ⟨rfl, hl⟩ := ((C90_file b ls).2 x).mp hs
      have key : (loop ls >>= fun a => (Except.error .unicode : Res Unit) >>= fun _ => pure a) = .error e ↔
          (loop ls = .error e ∨ (∃ a, loop ls = .ok a) ∧ e = .unicode) := by
        cases loop ls with
        | error x => exact ⟨fun h => .inl h, fun h => h.elim id (fun h => by obtain ⟨⟨_, h⟩, _⟩ := h; cases h)⟩
        | ok a =>
          constructor
          · intro h; cases h; exact .inr ⟨⟨a, rfl⟩, rfl⟩
          · rintro (h | ⟨_, rfl⟩)
            · cases h
            · rfl
      rw [key]
      constructor
      · intro h; exact .inr (.inr ⟨b, ls, rfl, hl, h⟩)
      · rintro (h | ⟨ls', ⟨b', h, h1⟩, h2⟩ | ⟨b', ls', h, h1, h2⟩)
        · cases h
        · cases h
          rw [← C90_at_once, hs] at h1
          cases h1
        · cases h
          have := ((C90_file b ls').2 .unicode).mpr ⟨rfl, h1⟩
          rw [hs] at this
          cases this
          exact h2

theorem inputFails_iff {M : Disk} {o : InputPluginObj} {e : Err} : o.setUp M = .error e ↔ InputSetupFails M o e := by
  cases o with
  | psm m s => exact ⟨fun h => (by cases h), fun h => h.elim⟩
  | default =>
    have hr : Resolves M.resources (codes "rewrite.def") (joinPath M.resources rewriteDef) := joins_iff.mp (rewriteDef_eq ▸ rfl)
    have key : (InputPluginObj.default.setUp M = .error e) ↔ M.ReadFails readRewriteDef (joinPath M.resources rewriteDef) e := by
      rw [← readFails_iff]
      unfold InputPluginObj.setUp
      dsimp only
      cases M.read readRewriteDef (joinPath M.resources rewriteDef) with
      | error x => exact ⟨fun h => by cases h; rfl, fun h => by cases h; rfl⟩
      | ok tb => exact ⟨fun h => (by cases h), fun h => (by cases h)⟩
    rw [key]
    constructor
    · intro h; exact ⟨_, hr, h⟩
    · rintro ⟨p, hp, h⟩
      rw [← joins_iff, ← rewriteDef_eq] at hp
      rw [hp]; exact h

theorem named_iff {M : Disk} {dir : PStr} {v : Json} {α : Type} {loop : List PStr → Res α} {a : α} :
    (joinJson dir v >>= M.readDefined loop) = .ok a ↔ M.Named dir v loop a := by
  show (joinJson dir v).bind (M.readDefined loop) = _ ↔ _
  rw [bind_ok_iff]
  constructor
  · rintro ⟨p, h1, h2⟩
    obtain ⟨s, rfl, hr⟩ := joinJson_iff.mp h1
    obtain ⟨h3, h4⟩ := defined_iff.mp h2
    exact ⟨s, p, rfl, hr, h3, h4⟩
  · rintro ⟨s, p, rfl, hr, h3, h4⟩
    exact ⟨p, joinJson_iff.mpr ⟨s, rfl, hr⟩, defined_iff.mpr ⟨h3, h4⟩⟩

theorem namedFails_iff {M : Disk} {dir : PStr} {v : Json} {α : Type} {loop : List PStr → Res α} {e : Err} :
    (joinJson dir v >>= M.readDefined loop) = .error e ↔ M.NamedFails dir v loop e := by
  unfold Disk.NamedFails
  by_cases hv : ∃ s, v = .str s
  · obtain ⟨s, rfl⟩ := hv
    have hd : M.readDefined loop (joinPath dir s) = .error e ↔
        ((joinPath dir s = [] ∧ e = .attribute) ∨ (joinPath dir s ≠ [] ∧ M.ReadFails loop (joinPath dir s) e)) := by
      unfold Disk.readDefined
      cases joinPath dir s with
      | nil => simp [eq_comm]
      | cons c cs => simp [readFails_iff]
    show M.readDefined loop (joinPath dir s) = _ ↔ _
    rw [hd]
    constructor
    · intro h; exact .inr ⟨s, _, rfl, joins_iff.mp rfl, h⟩
    · rintro (⟨_, h⟩ | ⟨s', p, h, hr, h'⟩)
      · exact absurd rfl (h s)
      · cases h
        rw [← joins_iff] at hr
        rw [hr]; exact h'
  · have hj : joinJson dir v = .error .type := by
      unfold joinJson
      split
      · exact absurd ⟨_, rfl⟩ hv
      · rfl
    rw [hj]
    constructor
    · intro h; cases h; exact .inl ⟨rfl, fun s hs => hv ⟨s, hs⟩⟩
    · rintro (⟨rfl, _⟩ | ⟨s, p, h, _⟩)
      · rfl
      · exact absurd ⟨s, h⟩ hv

theorem oovFails_iff {R : Runtime} {M : Disk} {dir : PStr} {g : Grammar} {o : OovPluginObj} {e : Err} :
    o.setUp M R.others dir g = .error e ↔ OovSetupFails R M dir g o e := by
  cases o with
  | simple l r c p => exact ⟨fun h => (by cases h), fun h => h.elim⟩
  | mecab c u =>
    have hs : (OovPluginObj.mecab c u).setUp M R.others dir g = ((joinJson dir c >>= M.readDefined (readProperties R.others [])) >>=
        fun cs => (joinJson dir u >>= M.readDefined (readUnk R.others g cs)) >>= fun ol => pure (OovPlugin.mecab (members cs) (members ol))) := by
      unfold OovPluginObj.setUp
      simp only [bind_assoc]
    rw [hs]
    refine next_iff (fun _ => named_iff) (fun _ => namedFails_iff) fun cs e => ?_
    rw [← namedFails_iff]
    cases (joinJson dir u >>= M.readDefined (readUnk R.others g cs)) with
    | error x => exact ⟨fun h => by cases h; rfl, fun h => by cases h; rfl⟩
    | ok tb => exact ⟨fun h => (by cases h), fun h => (by cases h)⟩

theorem readUser_length {cfg : DictConfig} {dict dict' : Dict} {b : Bytes} (h : dict.readUser cfg b = .ok dict') :
    dict'.set.lexicons.length = dict.set.lexicons.length + 1 := by
  obtain ⟨_, _, y, _, _, h, _⟩ := readUser_ok h
  rw [h]
  simp [LexSet.add]

theorem readUsers_length {cfg : DictConfig} : ∀ {bs : List Bytes} {dict dict' : Dict}, dict.readUsers cfg bs = .ok dict' →
    dict'.set.lexicons.length = dict.set.lexicons.length + bs.length
  | [], dict, dict', h => by rw [Dict.readUsers] at h; cases h; rfl
  | b :: bs, dict, dict', h => by
    rw [Dict.readUsers] at h
    obtain ⟨d, h1, h2⟩ := bind_ok h
    rw [readUsers_length h2, readUser_length h1, List.length_cons]
    omega

theorem readUsers_small {cfg : DictConfig} : ∀ {bs : List Bytes} {dict dict' : Dict}, dict.readUsers cfg bs = .ok dict' →
    dict.set.lexicons.length ≤ 16 → dict'.set.lexicons.length ≤ 16
  | [], dict, dict', h, hl => by rw [Dict.readUsers] at h; cases h; exact hl
  | b :: bs, dict, dict', h, _ => by
    rw [Dict.readUsers] at h
    obtain ⟨d, h1, h2⟩ := bind_ok h
    have := (readUser_ok h1).1
    exact readUsers_small h2 (by rw [readUser_length h1]; omega)

/-- What one user dictionary raises. -/
theorem readUser_error {cfg : DictConfig} {dict : Dict} {b : Bytes} (hf : dict.set.isFull = false) {e : Err} : dict.readUser cfg b = .error e ↔
    Next (fun du => fromUserDictionary b = .ok du) (fun e => fromUserDictionary b = .error e) (fun du e =>
      (dict.grammar.left * dict.grammar.right = 0 ∧ e = .value) ∨ dict.grammar.left * dict.grammar.right ≠ 0 ∧
      calculateCost (dict.tokenizer cfg [] .C) cfg.depth (List.range du.lexicon.size) Lattice.init du.lexicon = .error e) e := by
  unfold Dict.readUser
  rw [if_neg (by simp [hf])]
  refine next_iff (fun _ => Iff.rfl) (fun _ => Iff.rfl) fun du e => ?_
  unfold Dict.noCells
  by_cases hm : dict.grammar.left * dict.grammar.right = 0
  · rw [if_pos (by simpa using hm)]
    constructor
    · intro h; cases h; exact .inl ⟨hm, rfl⟩
    · rintro (⟨_, rfl⟩ | ⟨h, _⟩)
      · rfl
      · exact absurd hm h
  rw [if_neg (by simpa using hm)]
  refine Iff.trans ?_ (show _ ↔ _ from ⟨fun h => .inr ⟨hm, h⟩, fun h => h.elim (fun h => absurd h.1 hm) (·.2)⟩)
  cases calculateCost (dict.tokenizer cfg [] .C) cfg.depth (List.range du.lexicon.size) Lattice.init du.lexicon with
  | error x => exact ⟨fun h => by cases h; rfl, fun h => by cases h; rfl⟩
  | ok y =>
    constructor
    · intro h
      dsimp only [bind, Except.bind] at h
      split at h <;> cases h
    · intro h; cases h

theorem openUsers_error {M : Disk} {cfg : DictConfig} {e : Err} : ∀ {ps : List PStr} {d : Dict}, d.openUsers M cfg ps = .error e ↔
    ∃ pre p post files dict, ps = pre ++ p :: post ∧ Each (fun p b => M.file p = .ok b) pre files ∧ d.readUsers cfg files = .ok dict ∧
    ((16 ≤ dict.set.lexicons.length ∧ e = .value) ∨
     (dict.set.lexicons.length < 16 ∧ Next (fun b => M.file p = .ok b) (fun e => M.file p = .error e) (fun b =>
        Next (fun du => fromUserDictionary b = .ok du) (fun e => fromUserDictionary b = .error e) fun du e =>
          (dict.grammar.left * dict.grammar.right = 0 ∧ e = .value) ∨ dict.grammar.left * dict.grammar.right ≠ 0 ∧
          calculateCost (dict.tokenizer cfg [] .C) cfg.depth (List.range du.lexicon.size) Lattice.init du.lexicon = .error e) e))
  | [], d => by
    rw [Dict.openUsers]
    constructor
    · intro h; cases h
    · rintro ⟨pre, p, post, _, _, h, _⟩
      cases pre <;> cases h
  | p :: ps, d => by
    rw [Dict.openUsers]
    by_cases hf : d.set.isFull = true
    · have hl : 16 ≤ d.set.lexicons.length := by simpa [LexSet.isFull] using hf
      rw [if_pos hf]
      constructor
      · intro h
        cases h
        exact ⟨[], p, ps, [], d, rfl, .nil, by rw [Dict.readUsers], .inl ⟨hl, rfl⟩⟩
      · rintro ⟨pre, q, post, files, dict, h1, h2, h3, h4⟩
        cases h2 with
        | nil =>
          cases h1
          rw [Dict.readUsers] at h3
          cases h3
          rcases h4 with ⟨_, rfl⟩ | ⟨h4, _⟩
          · rfl
          · omega
        | cons _ _ =>
          rw [Dict.readUsers] at h3
          obtain ⟨d', h3, _⟩ := bind_ok h3
          unfold Dict.readUser at h3
          rw [if_pos hf] at h3
          cases h3
    · have hf' : d.set.isFull = false := by simpa using hf
      have hl : d.set.lexicons.length < 16 := by simpa [LexSet.isFull] using hf'
      rw [if_neg hf]
      cases hfile : M.file p with
      | error x =>
        constructor
        · intro h
          cases h
          exact ⟨[], p, ps, [], d, rfl, .nil, by rw [Dict.readUsers], .inr ⟨hl, .inl hfile⟩⟩
        · rintro ⟨pre, q, post, files, dict, h1, h2, h3, h4⟩
          cases h2 with
          | nil =>
            cases h1
            rw [Dict.readUsers] at h3
            cases h3
            rcases h4 with ⟨h4, _⟩ | ⟨_, h4 | ⟨b, h4, _⟩⟩
            · omega
            · rw [hfile] at h4; cases h4; rfl
            · rw [hfile] at h4; cases h4
          | cons g _ =>
            cases h1
            rw [hfile] at g
            cases g
      | ok b =>
        show (d.readUser cfg b >>= fun d => d.openUsers M cfg ps) = _ ↔ _
        cases hr : d.readUser cfg b with
        | error x =>
          constructor
          · intro h
            cases h
            exact ⟨[], p, ps, [], d, rfl, .nil, by rw [Dict.readUsers], .inr ⟨hl, .inr ⟨b, hfile, (readUser_error hf').mp hr⟩⟩⟩
          · rintro ⟨pre, q, post, files, dict, h1, h2, h3, h4⟩
            cases h2 with
            | nil =>
              cases h1
              rw [Dict.readUsers] at h3
              cases h3
              rcases h4 with ⟨h4, _⟩ | ⟨_, h4 | ⟨b', h4, h5⟩⟩
              · omega
              · rw [hfile] at h4; cases h4
              · rw [hfile] at h4
                cases h4
                rw [← readUser_error hf', hr] at h5
                cases h5
                rfl
            | cons g _ =>
              cases h1
              rw [hfile] at g
              cases g
              rw [Dict.readUsers, hr] at h3
              cases h3
        | ok d' =>
          show d'.openUsers M cfg ps = _ ↔ _
          rw [openUsers_error]
          constructor
          · rintro ⟨pre, q, post, files, dict, rfl, h2, h3, h4⟩
            exact ⟨p :: pre, q, post, b :: files, dict, rfl, .cons hfile h2, by rw [Dict.readUsers, hr]; exact h3, h4⟩
          · rintro ⟨pre, q, post, files, dict, h1, h2, h3, h4⟩
            cases h2 with
            | nil =>
              cases h1
              rw [Dict.readUsers] at h3
              cases h3
              rcases h4 with ⟨h4, _⟩ | ⟨_, h4 | ⟨b', h4, h5⟩⟩
              · omega
              · rw [hfile] at h4; cases h4
              · rw [hfile] at h4
                cases h4
                rw [← readUser_error hf', hr] at h5
                cases h5
            | cons g h2 =>
              cases h1
              rw [hfile] at g
              cases g
              rw [Dict.readUsers, hr] at h3
              exact ⟨_, q, post, _, dict, rfl, h2, h3, h4⟩

theorem usersFail_iff {M : Disk} {cfg : DictConfig} {e : Err} {ps : List PStr} {b : Bytes} {sys : Dict} (hs : Dict.readSystem b = .ok sys) :
    sys.openUsers M cfg ps = .error e ↔ UsersFail M cfg sys ps e := by
  have h1 : sys.set.lexicons.length = 1 := by
    unfold Dict.readSystem at hs
    obtain ⟨d, _, hs⟩ := bind_ok hs
    split at hs <;> cases hs
    rfl
  rw [openUsers_error]
  unfold UsersFail
  constructor
  · rintro ⟨pre, p, post, files, dict, h2, h3, h4, h5⟩
    have := readUsers_length h4
    refine ⟨pre, p, post, files, dict, h2, h3, h4, ?_⟩
    rcases h5 with ⟨h5, h6⟩ | ⟨h5, h6⟩
    · have := readUsers_small h4 (by omega)
      exact .inl ⟨by omega, h6⟩
    · exact .inr ⟨by omega, h6⟩
  · rintro ⟨pre, p, post, files, dict, h2, h3, h4, h5⟩
    have := readUsers_length h4
    refine ⟨pre, p, post, files, dict, h2, h3, h4, ?_⟩
    rcases h5 with ⟨h5, h6⟩ | ⟨h5, h6⟩
    · exact .inl ⟨by omega, h6⟩
    · exact .inr ⟨by omega, h6⟩

/-- The same, with what the step answered. -/
theorem next_iff' {α β : Type} {r : Res α} {k : α → Res β} {K : α → Err → Prop} {e : Err} (h3 : ∀ a e, r = .ok a → (k a = .error e ↔ K a e)) :
    (r >>= k) = .error e ↔ Next (fun a => r = .ok a) (fun e => r = .error e) K e := by
  unfold Next
  cases r with
  | error x =>
    constructor
    · intro h; cases h; exact .inl rfl
    · rintro (h | ⟨a, h, _⟩) <;> cases h
      rfl
  | ok a =>
    constructor
    · intro h; exact .inr ⟨a, rfl, (h3 a e rfl).mp h⟩
    · rintro (h | ⟨b, h, h'⟩)
      · cases h
      · cases h; exact (h3 a e rfl).mpr h'

theorem opens_error {R : Runtime} {M : Disk} {s : Settings} {d : JDict} {dir : PStr} (hd : s.dict = some d) (hdir : s.resourceDir = some dir)
    (ht : d.Typed) {e : Err} : openWith R M s = .error e ↔ OpenRaises R M s d dir e := by
  have h7 : s.theDict = .ok d := by unfold Settings.theDict; rw [hd]
  have h8 : s.theDir = .ok dir := by unfold Settings.theDir; rw [hdir]
  unfold openWith OpenRaises
  refine next_iff' fun p e _ => ?_
  refine next_iff' fun b e _ => ?_
  refine next_iff' fun sys e hsys => ?_
  refine next_iff' fun cp e _ => ?_
  refine next_iff (fun _ => read_ok) (fun _ => readFails_iff) fun ranges e => ?_
  refine next_iff' fun rs e _ => ?_
  rw [h7]
  show (s.theDir >>= fun dir => _) = _ ↔ _
  rw [h8]
  show (getPlugins d keyInputPlugins getInputPlugin >>= fun inputs => _) = _ ↔ _
  refine next_iff (fun _ => inputPlugins_iff) (fun e => ?_) fun io e => ?_
  · rw [keyInputPlugins_eq]
    exact pluginsFail_iff (fun _ _ => getInputPlugin_iff) (fun js hs j hj e => C88_input j (ht _ (.head _) js hs j hj) e)
      (fun x => ((C68_class_refused (.str x)).1 (fun _ h => by cases h)).1)
  refine next_iff (fun _ => each_mapM (fun _ _ => inputReady_iff))
    (fun e => firstFails_iff (fun _ _ => inputReady_iff) (fun _ _ _ => inputFails_iff)) fun ips e => ?_
  refine next_iff (fun _ => oovPlugins_iff) (fun e => ?_) fun oo e => ?_
  · rw [keyOovPlugins_eq]
    exact pluginsFail_iff (fun _ _ => getOovPlugin_iff) (fun js hs j hj e => C88_oov j (ht _ (.tail _ (.head _)) js hs j hj) e)
      (fun x => ((C68_class_refused (.str x)).1 (fun _ h => by cases h)).2.1)
  by_cases ho : oo = []
  · subst ho
    rw [if_pos (show ([] : List OovPluginObj).isEmpty = true from rfl)]
    constructor
    · intro h; cases h; exact .inl ⟨rfl, rfl⟩
    · rintro (⟨_, rfl⟩ | ⟨h, _⟩)
      · rfl
      · exact absurd rfl h
  · rw [if_neg (by simpa using ho)]
    have hor : ∀ {P : Prop}, (oo = [] ∧ e = .attribute ∨ oo ≠ [] ∧ P) ↔ P := by
      intro P
      exact ⟨fun h => (h.resolve_left fun h => ho h.1).2, fun h => .inr ⟨ho, h⟩⟩
    rw [hor]
    refine next_iff (fun _ => each_mapM (fun _ _ => oovReady_iff))
      (fun e => firstFails_iff (fun _ _ => oovReady_iff) (fun _ _ _ => oovFails_iff)) fun oovs e => ?_
    refine next_iff (fun _ => pathPlugins_iff) (fun e => ?_) fun po e => ?_
    · rw [keyPathPlugins_eq]
      exact pluginsFail_iff (fun _ _ => getPathPlugin_iff) (fun js hs j hj e => C88_path j (ht _ (.tail _ (.tail _ (.head _))) js hs j hj) e)
        (fun x => ((C68_class_refused (.str x)).1 (fun _ h => by cases h)).2.2)
    refine next_iff (fun _ => each_mapM (fun _ _ => pathReady_iff))
      (fun e => firstFails_iff (fun _ _ => pathReady_iff) (fun _ _ _ => C68_path_refused _ _ _)) fun pps e => ?_
    refine next_iff' fun users e _ => ?_
    rw [← usersFail_iff hsys]
    cases sys.openUsers M _ users with
    | error x => exact ⟨fun h => by cases h; rfl, fun h => by cases h; rfl⟩
    | ok y => exact ⟨fun h => (by cases h), fun h => (by cases h)⟩

/-- **C88** Opening a dictionary raises what the first step that fails raises: reading the settings, then the system dictionary, the
character definition, each kind of plugins (first all are made, then each is set up), and the user dictionaries. -/
theorem C88_opening (R : Runtime) (M : Disk) (s s' : Settings) (c r t : Option PStr) (e : Err) (ht : ∀ d, s'.dict = some d → d.Typed) :
    openDictionary R M s c r t = (s', .error e) ↔
      s.setUp M.toMachine c r t = (s', .error e) ∨
      s.setUp M.toMachine c r t = (s', .ok ()) ∧ ∃ d dir, s'.dict = some d ∧ s'.resourceDir = some dir ∧ OpenRaises R M s' d dir e := by
  unfold openDictionary
  have hset : ∀ s1, s.setUp M.toMachine c r t = (s1, .ok ()) → ∃ d dir, s1.dict = some d ∧ s1.resourceDir = some dir := by
    intro s1 h
    unfold Settings.setUp at h
    dsimp only at h
    split at h
    · cases h
    · split at h
      · cases h
      · cases h; exact ⟨_, _, rfl, rfl⟩
  rcases hs : s.setUp M.toMachine c r t with ⟨s1, r1⟩
  cases r1 with
  | error x =>
    constructor
    · intro h; cases h; exact .inl rfl
    · rintro (h | ⟨h, _⟩) <;> cases h
      rfl
  | ok u =>
    obtain ⟨d, dir, h1, h2⟩ := hset s1 hs
    constructor
    · intro h
      injection h with e1 e2
      subst e1
      exact .inr ⟨rfl, d, dir, h1, h2, (opens_error h1 h2 (ht d h1)).mp e2⟩
    · rintro (h | ⟨h, d', dir', h3, h4, h5⟩)
      · cases h
      · cases h
        exact Prod.ext rfl ((opens_error h3 h4 (ht d' h3)).mpr h5)

namespace Sample

/-- The sample's settings without providers of unknown words. -/
def noProviders : JDict := settings.take 3

def noProviderDisk : Disk := { disk with settings := fun p => if p = settingFile then .ok noProviders else .error .io }

/-- The sample's disk without the first user dictionary. -/
def noUserDisk : Disk := { disk with file := fun p => if p = userDic2 then .error .io else disk.file p }

theorem settings_typed : settings.Typed := by
  intro k hk js hs j hj
  have hf := JDict.find_says.mpr hs
  simp only [List.mem_cons, List.not_mem_nil, or_false] at hk
  rcases hk with rfl | rfl | rfl
  · rw [show settings.find (codes "inputTextPlugin") = none by rw [← keyInputPlugins_eq]; rfl] at hf
    cases hf
  · rw [show settings.find (codes "oovProviderPlugin") = _ by rw [← keyOovPlugins_eq]] at hf
    cases hf
    rw [List.mem_singleton.1 hj]
    constructor
    · rintro v ⟨d, hd, hs⟩
      cases hd
      have := JDict.find_says.mpr hs
      rw [← keySymbol_eq] at this
      cases this
    · rintro k hk v ⟨d, hd, hs⟩
      cases hd
      have := JDict.find_says.mpr hs
      simp only [List.mem_cons, List.not_mem_nil, or_false] at hk
      rcases hk with rfl | rfl | rfl | rfl
      · rw [← keyLeftId_eq] at this; cases this; exact ⟨_, .inl rfl⟩
      · rw [← keyRightId_eq] at this; cases this; exact ⟨_, .inl rfl⟩
      · rw [← keyCost_eq] at this; cases this; exact ⟨_, .inl rfl⟩
      · rw [← keyMinLength_eq] at this; cases this
  · rw [show settings.find (codes "pathRewritePlugin") = none by rw [← keyPathPlugins_eq]; rfl] at hf
    cases hf

theorem noProviders_typed : noProviders.Typed := by
  intro k hk js hs j hj
  have hf := JDict.find_says.mpr hs
  simp only [List.mem_cons, List.not_mem_nil, or_false] at hk
  rcases hk with rfl | rfl | rfl
  · rw [← keyInputPlugins_eq] at hf; cases hf
  · rw [← keyOovPlugins_eq] at hf; cases hf
  · rw [← keyPathPlugins_eq] at hf; cases hf

theorem system_opens : ∃ sys, Dict.readSystem systemFile = .ok sys := by
  have h := load_ok
  cases hs : Dict.readSystem systemFile with
  | error x =>
    unfold Dict.load at h
    rw [hs] at h
    cases h
  | ok sys => exact ⟨sys, rfl⟩

end Sample

section
attribute [local irreducible] Sample.systemFile

/-- Of plugin objects without a class: `ValueError`; of what is no object: `TypeError`. -/
example : getInputPlugin (.obj []) = .error .value ∧ getOovPlugin (.obj []) = .error .value ∧ getPathPlugin (.str []) = .error .type := by
  have ht : (Json.obj []).Typed := by
    constructor
    · rintro v ⟨d, hd, a, b, hs, _⟩; cases hd; cases a <;> cases hs
    · rintro k _ v ⟨d, hd, a, b, hs, _⟩; cases hd; cases a <;> cases hs
  have ht' : (Json.str []).Typed := ⟨fun v ⟨d, hd, _⟩ => (by cases hd), fun k _ v ⟨d, hd, _⟩ => (by cases hd)⟩
  have hl : (Json.obj []).Lacks "class" := ⟨[], rfl, fun _ h => (by cases h)⟩
  exact ⟨(C88_input _ ht _).mpr (.inl (.inr ⟨rfl, .inl hl⟩)), (C88_oov _ ht _).mpr (.inr ⟨rfl, .inl hl⟩),
    (C88_path _ ht' _).mpr (.inl ⟨fun d h => (by cases h), rfl⟩)⟩

/-- Without a provider of unknown words: `AttributeError`. -/
example : (openDictionary Sample.runtime Sample.noProviderDisk Settings.init (some Sample.settingFile) none none).2 = .error .attribute := by
  have hs : Settings.init.setUp Sample.noProviderDisk.toMachine (some Sample.settingFile) none none =
    (⟨true, some Sample.noProviders, some Sample.settingFile, some []⟩, .ok ()) := rfl
  refine congrArg Prod.snd ((C88_opening _ _ _ _ _ _ _ _ (fun d hd => ?_)).mpr (.inr ⟨hs, _, _, rfl, rfl, ?_⟩))
  · cases hd; exact Sample.noProviders_typed
  · obtain ⟨sys, hsys⟩ := Sample.system_opens
    refine .inr ⟨Sample.systemDic, by decide, .inr ⟨Sample.systemFile, rfl, .inr ⟨sys, hsys, .inr ⟨Sample.charFile, by decide, .inr
      ⟨[⟨48, 58, [Cat.NUMERIC]⟩], ⟨_, ⟨_, rfl, rfl⟩, by decide +kernel⟩, .inr ⟨[⟨48, 58, [Cat.NUMERIC]⟩], by decide +kernel, .inr ⟨[], ?_, .inr ⟨[], .nil, .inr ⟨[], ?_, .inl ⟨rfl, rfl⟩⟩⟩⟩⟩⟩⟩⟩⟩⟩
    · exact inputPlugins_iff.mp rfl
    · exact oovPlugins_iff.mp rfl

/-- The first user dictionary is missing: what `open` raises. -/
example : (openDictionary Sample.runtime Sample.noUserDisk Settings.init (some Sample.settingFile) none none).2 = .error .io := by
  have hs : Settings.init.setUp Sample.noUserDisk.toMachine (some Sample.settingFile) none none =
    (⟨true, some Sample.settings, some Sample.settingFile, some []⟩, .ok ()) := rfl
  refine congrArg Prod.snd ((C88_opening _ _ _ _ _ _ _ _ (fun d hd => ?_)).mpr (.inr ⟨hs, _, _, rfl, rfl, ?_⟩))
  · cases hd; exact Sample.settings_typed
  · obtain ⟨sys, hsys⟩ := Sample.system_opens
    refine .inr ⟨Sample.systemDic, by decide, .inr ⟨Sample.systemFile, rfl, .inr ⟨sys, hsys, .inr ⟨Sample.charFile, by decide, .inr
      ⟨[⟨48, 58, [Cat.NUMERIC]⟩], ⟨_, ⟨_, rfl, rfl⟩, by decide +kernel⟩, .inr ⟨[⟨48, 58, [Cat.NUMERIC]⟩], by decide +kernel, .inr ⟨[], inputPlugins_iff.mp rfl, .inr ⟨[], .nil, .inr
        ⟨_, oovPlugins_iff.mp rfl, .inr ⟨by simp, .inr ⟨_, .cons (oovReady_iff.mp rfl) .nil, .inr ⟨[], pathPlugins_iff.mp rfl, .inr
          ⟨[], .nil, .inr ⟨[Sample.userDic2, Sample.userDic1], by decide, [], _, _, [], sys, rfl, .nil, by rw [Dict.readUsers], .inr
            ⟨by decide, .inl rfl⟩⟩⟩⟩⟩⟩⟩⟩⟩⟩⟩⟩⟩⟩⟩

end

end Sudachi
