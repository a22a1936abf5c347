import Verif.Model.Numeric
import Verif.Spec.Numeric
namespace Sudachi

/-! ### Powers of ten and digit strings -/

def p10 (e : Int) : Rat := (10 : Rat) ^ e

theorem p10_add (a b : Int) : p10 (a + b) = p10 a * p10 b := Rat.zpow_add (q := 10) (by decide) a b
theorem p10_zero : p10 0 = 1 := Rat.zpow_zero 10
theorem p10_nat (n : Nat) : p10 n = 10 ^ n := Rat.zpow_natCast 10 n
theorem p10_neg (a : Int) : p10 (-a) * p10 a = 1 := by rw [← p10_add, Int.add_left_neg, p10_zero]
theorem p10_nat_ne (n : Nat) : (10 : Rat) ^ n ≠ 0 := by
  intro h
  have := p10_neg n
  rw [p10_nat, h, Rat.mul_zero] at this
  exact absurd this (by decide)
theorem p10_negnat (n : Nat) : p10 (-(n : Int)) = 1 / 10 ^ n := by
  have h1 := p10_neg n
  rw [p10_nat] at h1
  have h2 := p10_nat_ne n
  generalize (10 : Rat) ^ n = y at *
  generalize p10 (-(n : Int)) = x at *
  grind

theorem foldl_digits (s : PStr) : ∀ v : Rat,
    s.foldl (fun (v : Rat) (c : Nat) => v * 10 + ((c : Rat) - 48)) v = v * 10 ^ s.length + digitsValue s := by
  unfold digitsValue
  induction s with
  | nil => intro v; simp only [List.foldl_nil, List.length_nil, Rat.pow_zero]; grind
  | cons c cs ih =>
    intro v
    simp only [List.foldl_cons, List.length_cons]
    rw [ih, ih (0 * 10 + ((c : Rat) - 48)), Rat.pow_succ]
    generalize (10 : Rat) ^ cs.length = y
    grind

theorem digitsValue_append (a b : PStr) : digitsValue (a ++ b) = digitsValue a * 10 ^ b.length + digitsValue b := by
  show (a ++ b).foldl _ _ = _
  rw [List.foldl_append, foldl_digits b]
  rfl

theorem digitsValue_zeros (k : Nat) : digitsValue (List.replicate k 48) = 0 := by
  induction k with
  | zero => rfl
  | succ k ih =>
    have : List.replicate (k + 1) 48 = [48] ++ List.replicate k 48 := by simp [List.replicate_succ]
    rw [this, digitsValue_append, ih]
    have : digitsValue [48] = 0 := by simp [digitsValue]; grind
    rw [this]; grind

theorem digitsValue_single (d : Nat) : digitsValue [48 + d] = d := by
  simp [digitsValue]; grind

theorem AllDigits.append {a b : PStr} (ha : AllDigits a) (hb : AllDigits b) : AllDigits (a ++ b) := by
  intro c hc
  rcases List.mem_append.mp hc with h | h
  · exact ha c h
  · exact hb c h

theorem AllDigits.zeros (k : Nat) : AllDigits (List.replicate k 48) := by
  intro c hc; rw [(List.mem_replicate.mp hc).2]; omega

/-! ### StringNumber -/

namespace SNum

/-- The state of a `StringNumber` outside `__str__`: the position is at the end, the content is digits. -/
structure WF (n : SNum) : Prop where
  pos : n.pos = n.sig.length
  digits : AllDigits n.sig
  scale : 0 ≤ n.scale
  point : n.point = -1 ∨ (1 ≤ n.point ∧ n.point ≤ n.pos)

/-- Number of digits after the point. -/
def fracLen (n : SNum) : Int := if n.point < 0 then 0 else n.pos - n.point

/-- The number it stands for. -/
def val (n : SNum) : Rat := digitsValue n.sig * p10 (n.scale - n.fracLen)

theorem WF.empty : WF empty := ⟨rfl, by intro c hc; simp [SNum.empty] at hc, by simp [SNum.empty], .inl rfl⟩
theorem val_empty : val empty = 0 := by simp [val, SNum.empty, digitsValue, Rat.zero_mul]

theorem WF.write_eq {n : SNum} (h : n.WF) (s : PStr) : n.write s = { n with sig := n.sig ++ s, pos := n.pos + s.length } := by
  unfold write
  have hp := h.pos
  congr 1
  rw [List.take_of_length_le (by omega), List.drop_eq_nil_of_le (by omega), hp]
  simp

theorem WF.zero_sig {n : SNum} (h : n.WF) (hz : n.isZero = true) : n.sig = [] ∧ n.pos = 0 ∧ n.point = -1 := by
  simp only [isZero, decide_eq_true_eq] at hz
  have := h.pos
  refine ⟨List.eq_nil_of_length_eq_zero (by omega), hz, ?_⟩
  rcases h.point with h' | h' <;> omega

theorem WF.zero_val {n : SNum} (h : n.WF) (hz : n.isZero = true) : n.val = 0 := by
  simp [val, (h.zero_sig hz).1, digitsValue, Rat.zero_mul]

theorem WF.normalize {n : SNum} (h : n.WF) : n.normalizeScale.WF ∧ n.normalizeScale.val = n.val ∧
    n.normalizeScale.sig = n.sig ∧ n.normalizeScale.pos = n.pos ∧ n.normalizeScale.allZero = n.allZero ∧
    (n.normalizeScale.point = -1 ∨ (n.normalizeScale.scale = 0 ∧ 1 ≤ n.normalizeScale.point ∧
      n.normalizeScale.point < n.normalizeScale.pos)) := by
  have hs := h.scale
  unfold normalizeScale
  by_cases hp : n.point < 0
  · rw [if_pos hp]
    refine ⟨h, rfl, rfl, rfl, rfl, .inl ?_⟩
    rcases h.point with h' | h' <;> omega
  · rw [if_neg hp]
    have hpt : 1 ≤ n.point ∧ n.point ≤ n.pos := by
      rcases h.point with h' | h'
      · omega
      · exact h'
    dsimp only
    by_cases hn : (n.pos : Int) - n.point > n.scale
    · rw [if_pos hn]
      refine ⟨⟨h.pos, h.digits, by simp, .inr ⟨by simp; omega, by simp; omega⟩⟩, ?_, rfl, rfl, rfl, .inr ⟨rfl, by simp; omega, by simp; omega⟩⟩
      simp only [val, fracLen]
      congr 2
      rw [if_neg (by omega), if_neg hp]
      omega
    · rw [if_neg hn]
      refine ⟨⟨h.pos, h.digits, by simp; omega, .inl rfl⟩, ?_, rfl, rfl, rfl, .inl rfl⟩
      simp only [val, fracLen]
      congr 2
      rw [if_neg hp]
      simp

theorem WF.intLength {n : SNum} (h : n.WF) (hz : n.isZero = false) : ∃ l, n.intLength = (n.normalizeScale, l) ∧ 1 ≤ l ∧
    ((n.normalizeScale.point = -1 ∧ l = n.pos + n.normalizeScale.scale) ∨
     (n.normalizeScale.scale = 0 ∧ 1 ≤ n.normalizeScale.point ∧ l = n.normalizeScale.point)) := by
  obtain ⟨w, _, _, hpos, _, hcase⟩ := h.normalize
  simp only [isZero, decide_eq_false_iff_not] at hz
  unfold SNum.intLength
  dsimp only
  rcases hcase with h1 | ⟨h1, h2, h3⟩
  · rw [if_neg (by omega)]
    have := w.scale
    exact ⟨_, rfl, by omega, .inl ⟨h1, by omega⟩⟩
  · rw [if_pos (by omega)]
    exact ⟨_, rfl, h2, .inr ⟨h1, h2, rfl⟩⟩

/-- `add` adds. -/
theorem WF.add {a b : SNum} (ha : a.WF) (hb : b.WF) {s n : SNum} {r : Bool} (h : a.add b = (s, n, r)) :
    n.WF ∧ n.val = b.val ∧ (r = true → s.WF ∧ s.val = a.val + b.val ∧ (s.isZero = true ↔ a.isZero = true ∧ b.isZero = true)) := by
  unfold SNum.add at h
  by_cases hz : b.isZero = true
  · rw [if_pos hz] at h
    simp only [Prod.mk.injEq] at h
    obtain ⟨rfl, rfl, rfl⟩ := h
    refine ⟨hb, rfl, fun _ => ⟨ha, ?_, by simp [hz]⟩⟩
    rw [hb.zero_val hz]; grind
  · rw [if_neg hz] at h
    simp only [Bool.not_eq_true] at hz
    by_cases ha0 : a.isZero = true
    · rw [if_pos ha0] at h
      simp only [Prod.mk.injEq] at h
      obtain ⟨rfl, rfl, rfl⟩ := h
      obtain ⟨z1, z2, _⟩ := ha.zero_sig ha0
      refine ⟨hb, rfl, fun _ => ?_⟩
      rw [ha.write_eq, z1, z2, ha.zero_val ha0]
      have hbp := hb.pos
      simp only [List.nil_append, Nat.zero_add]
      refine ⟨⟨rfl, hb.digits, hb.scale, by rw [← hbp]; exact hb.point⟩, ?_, ?_⟩
      · simp only [val, fracLen, hbp]
        grind
      · simp only [isZero, decide_eq_true_eq, decide_eq_false_iff_not] at hz ⊢
        constructor
        · intro hh; omega
        · intro hh; exact absurd hh.2 hz
    · rw [if_neg ha0] at h
      simp only [Bool.not_eq_true] at ha0
      obtain ⟨wa, va, siga, posa, _, ca⟩ := ha.normalize
      obtain ⟨wb, vb, sigb, posb, _, cb⟩ := hb.normalize
      obtain ⟨l, hl, hl1, hcl⟩ := hb.intLength hz
      rw [hl] at h
      dsimp only at h
      by_cases hge : a.normalizeScale.scale ≥ l
      · rw [if_pos hge] at h
        simp only [Prod.mk.injEq] at h
        obtain ⟨hs, rfl, rfl⟩ := h
        refine ⟨wb, vb, fun _ => ?_⟩
        rw [← va, ← vb]
        -- `a` normalised has no point
        have hap : a.normalizeScale.point = -1 := by
          rcases ca with h' | ⟨h', _, _⟩
          · exact h'
          · omega
        have hpa : a.pos ≠ 0 := by simpa [isZero] using ha0
        generalize hA : a.normalizeScale = A at *
        generalize hB : b.normalizeScale = N at *
        -- the zeros
        have hfill : A.fillZero (A.scale - l) = 
            ⟨A.sig ++ List.replicate (A.scale - l).toNat 48, A.pos + (A.scale - l).toNat, A.scale, A.point, A.allZero⟩ := by
          unfold fillZero
          by_cases hk : A.scale - l > 0
          · rw [if_pos hk, wa.write_eq]; simp
          · rw [if_neg hk]
            have : (A.scale - l).toNat = 0 := by omega
            simp [this]
        rw [hfill] at hs
        have hApos := wa.pos
        have hNpos := wb.pos
        have hscale := wb.scale
        -- the sum
        have hs' : s = 
            ⟨A.sig ++ List.replicate (A.scale - l).toNat 48 ++ N.sig, A.pos + (A.scale - l).toNat + N.pos, N.scale,
              if N.point ≥ 0 then (A.pos + (A.scale - l).toNat : Nat) + N.point else -1, A.allZero⟩ := by
          rw [← hs]
          by_cases hnp : N.point ≥ 0
          · simp only [hnp, if_true, write]
            congr 1
            · rw [List.take_of_length_le (by simp; omega), List.drop_eq_nil_of_le (by simp; omega)]
              have : A.pos + (A.scale - l).toNat - (A.sig ++ List.replicate (A.scale - l).toNat 48).length = 0 := by
                simp; omega
              rw [this]; simp
            · omega
          · simp only [hnp, if_false, write]
            congr 1
            · rw [List.take_of_length_le (by simp; omega), List.drop_eq_nil_of_le (by simp; omega)]
              have : A.pos + (A.scale - l).toNat - (A.sig ++ List.replicate (A.scale - l).toNat 48).length = 0 := by
                simp; omega
              rw [this]; simp
            · omega
        clear hs hfill
        subst hs'
        refine ⟨⟨by simp; omega, (wa.digits.append (AllDigits.zeros _)).append wb.digits, hscale, ?_⟩, ?_, ?_⟩
        · dsimp only
          split
          · rcases wb.point with h' | h'
            · omega
            · right; omega
          · exact .inl rfl
        · have hlen : (N.scale : Int) - (if N.point < 0 then 0 else (N.pos : Int) - N.point) + N.pos = l := by
            rcases hcl with ⟨q1, q2⟩ | ⟨q1, q2, q3⟩
            · rw [if_pos (by omega)]; omega
            · rw [if_neg (by omega)]; omega
          simp only [val, fracLen]
          have hf : (if (if N.point ≥ 0 then ((A.pos + (A.scale - l).toNat : Nat) : Int) + N.point else -1) < 0 then 0
              else ((A.pos + (A.scale - l).toNat + N.pos : Nat) : Int) -
                (if N.point ≥ 0 then ((A.pos + (A.scale - l).toNat : Nat) : Int) + N.point else -1)) =
              (if N.point < 0 then 0 else (N.pos : Int) - N.point) := by
            by_cases hnp : N.point ≥ 0
            · rw [if_pos hnp, if_neg (by omega), if_neg (by omega)]; omega
            · rw [if_neg hnp, if_pos (by omega), if_pos (by omega)]
          rw [hf, hap, if_pos (by omega : (-1 : Int) < 0)]
          generalize (if N.point < 0 then 0 else (N.pos : Int) - N.point) = f at *
          rw [digitsValue_append, digitsValue_append, digitsValue_zeros, List.length_replicate, ← hNpos]
          have e1 : (A.scale - 0 : Int) = ((A.scale - l).toNat : Int) + ((N.pos : Int) + (N.scale - f)) := by omega
          rw [e1, p10_add, p10_add, p10_nat, p10_nat]
          generalize (10 : Rat) ^ (A.scale - l).toNat = y1
          generalize (10 : Rat) ^ N.pos = y2
          generalize p10 (N.scale - f) = y3
          grind
        · simp only [isZero, decide_eq_true_eq]
          constructor
          · intro hh; omega
          · intro hh; exact absurd hh.1 hpa
      · rw [if_neg hge] at h
        simp only [Prod.mk.injEq] at h
        obtain ⟨_, rfl, rfl⟩ := h
        exact ⟨wb, vb, fun hh => by cases hh⟩

end SNum
end Sudachi
