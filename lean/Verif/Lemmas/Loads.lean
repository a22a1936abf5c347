/-
Loading dictionaries that were built from complete sources cannot fail.
-/
import Verif.Spec.Loads
import Verif.Lemmas.Buildable5
import Verif.Lemmas.Installed2
import Verif.Props.Buildable
namespace Sudachi
open DictBuilder Sources

/-- `calculate_cost` succeeds if the surfaces of the words with automatic costs can be tokenized. -/
theorem calculateCost_total {T : Tokenizer} {depth : Nat} {x0 : DALex} (hlay : x0.Layout)
    (hinfo : ∀ y w, CostHistory x0 y → w < x0.size → ∃ c, y.cost w = .ok c)
    (hauto : ∀ y w, CostHistory x0 y → w < x0.size → x0.cost w = .ok (-32768) → ∃ wi, y.wordInfo depth w = .ok wi ∧
      ∀ L, T.CleanHistory L → ∃ ms, (T.tokenize L wi.surface none).2 = .ok ms ∧ ms.path ≠ []) :
    ∀ {ws : List Nat} {L : Lattice} {x : DALex}, CostHistory x0 x → T.CleanHistory L → ws.Nodup → (∀ w ∈ ws, w < x0.size) →
      (∀ w ∈ ws, x.cost w = x0.cost w) → ∃ y, calculateCost T depth ws L x = .ok y
  | [], L, x, _, _, _, _, _ => ⟨x, rfl⟩
  | w :: ws, L, x, hx, hL, hn, hlt, hsame => by
    obtain ⟨hn1, hn2⟩ := List.nodup_cons.1 hn
    have hw := hlt w (by simp)
    obtain ⟨c, hc⟩ := hinfo x w hx hw
    unfold calculateCost
    rw [hc]
    dsimp only
    by_cases hne : c ≠ -32768
    · rw [if_pos hne]
      exact calculateCost_total hlay hinfo hauto hx hL hn2 (fun v hv => hlt v (by simp [hv])) (fun v hv => hsame v (by simp [hv]))
    · rw [if_neg hne]
      have heq : c = -32768 := by omega
      subst heq
      obtain ⟨wi, h1, h2⟩ := hauto x w hx hw (by rw [← hsame w (by simp)]; exact hc)
      obtain ⟨ms, h3, h4⟩ := h2 L hL
      rw [h1]
      dsimp only
      obtain ⟨L', hL'⟩ : ∃ L', T.tokenize L wi.surface none = (L', .ok ms) := ⟨_, Prod.ext rfl h3⟩
      rw [hL']
      dsimp only
      obtain ⟨cost, h5, h6, h7⟩ : ∃ cost, autoCost ms = .ok cost ∧ -32768 ≤ cost ∧ cost ≤ 32767 := by
        unfold autoCost MorphemeList.internalCost
        cases hp : ms.path with
        | nil => exact absurd hp h4
        | cons a p =>
          rw [List.getLast?_cons, List.head?_cons]
          exact ⟨_, rfl, by omega, by omega⟩
      rw [h5]
      dsimp only
      obtain ⟨hlx, hsz⟩ := history_layout hlay hx
      obtain ⟨x', h8⟩ := (setCost_size hlx (w := w) (c := cost)).1 ⟨by omega, h6, h7⟩
      rw [h8]
      refine calculateCost_total hlay hinfo hauto (.step hx h8) (.call wi.surface none hL hL') hn2 (fun v hv => hlt v (by simp [hv]))
        (fun v hv => ?_)
      have hvw : v ≠ w := fun h => hn1 (h ▸ hv)
      rw [← hsame v (by simp [hv])]
      unfold DALex.cost
      rw [setCost_param hlx h8, if_neg (by omega)]

theorem readUsers_snoc {cfg : DictConfig} {b : Bytes} : ∀ {us : List Bytes} {d mid : Dict}, d.readUsers cfg us = .ok mid →
    d.readUsers cfg (us ++ [b]) = mid.readUser cfg b
  | [], d, mid, h => by
    cases h
    show d.readUsers cfg [b] = _
    unfold Dict.readUsers Dict.readUsers
    cases d.readUser cfg b <;> rfl
  | u :: us, d, mid, h => by
    unfold Dict.readUsers at h
    obtain ⟨m, h1, h2⟩ := bind_ok h
    rw [List.cons_append]
    unfold Dict.readUsers
    rw [h1]
    exact readUsers_snoc h2

theorem load_snoc {cfg : DictConfig} {file b : Bytes} {us : List Bytes} {mid : Dict} (h : Dict.load cfg file us = .ok mid) :
    Dict.load cfg file (us ++ [b]) = mid.readUser cfg b := by
  unfold Dict.load at h ⊢
  obtain ⟨d0, h0, h⟩ := bind_ok h
  rw [h0]
  rw [ok_bind]
  split at h
  · cases h
  · rename_i hoov
    rw [if_neg hoov]
    exact readUsers_snoc h

namespace Sources

/-- Only the first `k` user dictionaries. -/
def upTo (S : Sources) (k : Nat) : Sources := { S with users := S.users.take k }

theorem upTo_at {S : Sources} {k d : Nat} {src : DictSource} (h : (S.upTo k).at? d = some src) : S.at? d = some src := by
  unfold at? upTo at *
  cases d with
  | zero => exact h
  | succ d =>
    simp only [List.getElem?_cons_succ, List.getElem?_take] at h ⊢
    split at h
    · exact h
    · cases h

theorem upTo_row {S : Sources} {k d w : Nat} {c : Cols} (h : (S.upTo k).Row d w c) : S.Row d w c := by
  obtain ⟨src, h1, h2⟩ := h
  exact ⟨src, upTo_at h1, h2⟩

theorem Complete.upTo {S : Sources} {n depth : Nat} {entries : List (Int × Int × Int)} (h : S.Complete n entries depth) (k : Nat) :
    (S.upTo k).Complete n entries depth where
  matrix := h.matrix
  allowed := h.allowed
  ids d w c hr := h.ids d w c (upTo_row hr)
  few := by
    have := h.few
    show (S.users.take k).length ≤ 7
    rw [List.length_take]
    omega
  fit d w c hr := h.fit d w c (upTo_row hr)
  chains d src w c hs hr := h.chains d src w c (upTo_at hs) hr

end Sources

variable {S : Sources} {cfg : DictConfig}

/-- A text that is not too long is tokenized in mode C without path rewriting, as at least one morpheme. -/
theorem tokenizes_plain (hD : cfg.D.Ok) {dict : Dict} (h : S.Installed cfg dict) {n : Nat} {entries : List (Int × Int × Int)}
    (hS : S.Complete n entries cfg.depth) (hcfg : cfg.Complete n) {L : Lattice} (hL : (dict.tokenizer cfg [] .C).CleanHistory L) {text : PStr}
    (hne : text ≠ []) (henc : ∀ c ∈ text, encodable c = true)
    (hlen : ∀ t, (dict.tokenizer cfg [] .C).buildInput text = .ok t → SafeLength t.bytes.length) :
    ∃ ms, ((dict.tokenizer cfg [] .C).tokenize L text none).2 = .ok ms ∧ ms.path ≠ [] := by
  have hT := h.complete hD hS hcfg [] .C
  obtain ⟨ms, hms⟩ := (tokenize_cases hT (hL.clean hT.plugins hT.lexOk) hne henc hlen (mode := none) (.inl rfl)).2.1 rfl
  refine ⟨ms, hms, ?_⟩
  have ht : (dict.tokenizer cfg [] .C).tokenize L text none = (((dict.tokenizer cfg [] .C).tokenize L text none).1, .ok ms) := Prod.ext rfl hms
  obtain ⟨spans, h1, h2⟩ := tokenize_partition (T := dict.tokenizer cfg [] .C) hT.plugins hT.lexOk hL.history (.inl rfl) ht
  intro hp
  have h3 : ms.path.length = spans.length := h1.1
  rw [hp] at h3
  have : spans = [] := List.length_eq_zero_iff.1 h3.symm
  rw [this] at h2
  have : (0 : Nat) = text.length := h2
  exact hne (List.length_eq_zero_iff.1 this.symm)

/-- Built files load. -/
theorem loads (hD : cfg.D.Ok) {n : Nat} {entries : List (Int × Int × Int)} (hS : S.Complete n entries cfg.depth) (hcfg : cfg.Complete n)
    (hauto : S.AutoTexts cfg) (hsk : S.system.header.version = SYSTEM_DICT_VERSION_2)
    (huk : ∀ src ∈ S.users, src.header.version = USER_DICT_VERSION_3) {file : Bytes} {files : List Bytes} {ds : BinDict} {depth : Nat}
    (hb : S.system.Builds cfg.D none file) (hr : readDictionary file = .ok ds) (hs : S.sys = ds.toSysDict cfg.D depth)
    (hlen : files.length = S.users.length)
    (husers : ∀ (k : Nat) (src : DictSource) (b : Bytes), S.users[k]? = some src → files[k]? = some b → src.Builds cfg.D (some S.sys) b) :
    ∀ k, k ≤ files.length → ∃ mid, Dict.load cfg file (files.take k) = .ok mid := by
  obtain ⟨g0, F0⟩ := compiled_facts hD hb.1 (hb.compiled hr)
  have hfit0 : AllFit S.system.rows := fun w c hw => hS.fit 0 w c ⟨_, rfl, hw⟩
  have hknows : S.sys.KnowsPos := by
    rw [hs]
    exact C71_system hD hb.1 (hb.compiled hr) hfit0 depth
  intro k
  induction k with
  | zero =>
    intro _
    refine ⟨⟨g0, LexSet.init ds.lexicon⟩, ?_⟩
    unfold Dict.load Dict.readSystem fromSystemDictionary
    rw [hr, ok_bind, F0.header, hsk]
    have : (if (!isSystemDictionary (SYSTEM_DICT_VERSION_2 : Int).toNat) = true then Except.error Err.io else pure ds : Res BinDict) = .ok ds := rfl
    rw [this, ok_bind]
    rw [F0.grammar]
    obtain ⟨o, ho⟩ := hcfg.simpleLast
    have hne : cfg.oov.isEmpty = false := by
      cases hc : cfg.oov with
      | nil => rw [hc] at ho; cases ho
      | cons => rfl
    show (if cfg.oov.isEmpty = true then _ else _) = _
    rw [hne]
    rfl
  | succ k ih =>
    intro hk
    obtain ⟨mid, hmid⟩ := ih (by omega)
    have hku : k < S.users.length := by omega
    have hsrc := List.getElem?_eq_getElem hku
    have hbk := List.getElem?_eq_getElem (show k < files.length by omega)
    have hB := husers k _ _ hsrc hbk
    have hI : (S.upTo k).Installed cfg mid := by
      refine ⟨file, files.take k, ds, depth, hb, hr, hs, ?_, ?_, hmid⟩
      · show (files.take k).length = (S.users.take k).length
        rw [List.length_take, List.length_take, hlen]
      · intro j src b h1 h2
        have h1 : (S.users.take k)[j]? = some src := h1
        rw [List.getElem?_take] at h1 h2
        split at h1
        · rename_i hj
          rw [if_pos hj] at h2
          exact husers j src b h1 h2
        · cases h1
    have htake : files.take (k + 1) = files.take k ++ [files[k]] := by
      rw [List.take_add_one, hbk]
      rfl
    rw [htake, load_snoc hmid]
    obtain ⟨hSO, ops, hops, hf⟩ := hB
    obtain ⟨P, hP, hf'⟩ := DictBuilder.build_ok hops
    obtain ⟨g, r1, _⟩ := load_built hP hSO hD
    rw [← hf', ← hf] at r1
    have hB : (S.users[k]).Builds cfg.D (some S.sys) files[k] := ⟨hSO, ops, hops, hf⟩
    have hC := hB.compiled r1
    obtain ⟨g', F⟩ := compiled_facts hD hSO hC
    have hrow : ∀ {w c}, RowIs (S.users[k]).rows w c → S.Row (k + 1) w c := fun hw => ⟨_, hsrc, hw⟩
    have hfit : AllFit (S.users[k]).rows := fun w c hw => hS.fit (k + 1) w c (hrow hw)
    obtain ⟨cs, hcs⟩ := C71_rows hB
    have hwrit := build_writable hSO hcs (fun s h => by cases h; exact hknows) hops
    have hcalc : ∃ y, calculateCost (mid.tokenizer cfg [] .C) cfg.depth (List.range (P.lexicon true).size) Lattice.init (P.lexicon true) = .ok y := by
      refine calculateCost_total F.layout ?_ ?_ .refl .fresh List.nodup_range (fun v hv => List.mem_range.1 hv) (fun _ _ => rfl)
      · intro y w hy hw
        obtain ⟨c, hc⟩ := F.rowsRead w (by rw [← F.size]; exact hw)
        have : ∀ {y : DALex}, CostHistory (P.lexicon true) y → ∃ c, y.cost w = .ok c := by
          intro y hy
          induction hy with
          | refl =>
            obtain ⟨v, hv⟩ := (F.rowsOk w c hc).cost
            exact ⟨v, by rw [← hv]; exact F.cost w c hc⟩
          | @step y z v cost hy hz ih =>
            obtain ⟨c, hc⟩ := ih
            unfold DALex.cost at hc ⊢
            rw [setCost_param (history_layout F.layout hy).1 hz]
            split
            · exact ⟨_, rfl⟩
            · exact ⟨c, hc⟩
        exact this hy
      · intro y w hy hw hcost
        obtain ⟨c, hc⟩ := F.rowsRead w (by rw [← F.size]; exact hw)
        obtain ⟨m, hm, hlt⟩ := hS.chains (k + 1) _ w c hsrc hc
        obtain ⟨wi, hwi⟩ := history_answers F hy hfit hm cfg.depth hlt
        obtain ⟨st, s1, s2, _⟩ := F.infos w c hc (hfit w c hc)
        rw [← history_stored F.layout hy w hw] at s1
        have hsur : wi.surface = c.surface := by rw [wordInfo_stored s1 hwi]; exact s2.surface
        refine ⟨wi, hwi, fun L hL => ?_⟩
        rw [hsur]
        obtain ⟨a1, a2⟩ := hauto k w c (hrow hc) (by rw [← F.cost w c hc]; exact hcost)
        have hcm : c ∈ cs := by
          have hwl : w < cs.length := by rw [hcs.1, ← F.size]; exact hw
          obtain ⟨row, q1, q2⟩ := hcs.2 w cs[w] (List.getElem?_eq_getElem hwl)
          obtain ⟨row', q3, q4⟩ := hc
          rw [q1] at q3
          cases q3
          rw [Sample.reads_unique q4 q2]
          exact List.getElem_mem hwl
        exact tokenizes_plain hD hI (hS.upTo k) hcfg hL a1 ((hwrit.rows c hcm).surface.1) (a2 mid)
    obtain ⟨y, hy⟩ := hcalc
    have hcells : ¬ mid.noCells = true := by
      rw [hI.cells hD (hS.upTo k).matrix]
      exact Bool.false_ne_true
    unfold Dict.readUser LexSet.isFull
    have hfull : mid.set.lexicons.length = k + 1 := by
      rw [hI.set.2.1]
      show (S.users.take k).length + 1 = _
      rw [List.length_take]
      omega
    have := hS.few
    rw [if_neg (by simp only [decide_eq_true_eq]; omega)]
    unfold fromUserDictionary
    rw [r1, ok_bind]
    have hv := huk _ (List.getElem_mem hku)
    have : (if (!isUserDictionary (S.users[k]).header.version.toNat) = true then Except.error Err.io else
        pure ⟨(S.users[k]).header, some g, P.lexicon true⟩ : Res BinDict) = .ok ⟨(S.users[k]).header, some g, P.lexicon true⟩ := by
      rw [hv]; rfl
    rw [this, ok_bind]
    dsimp only
    rw [if_neg hcells, hy, ok_bind]
    exact ⟨_, rfl⟩

end Sudachi
