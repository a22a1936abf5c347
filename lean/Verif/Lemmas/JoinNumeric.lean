import Verif.Lemmas.PathRewrite
import Verif.Props.Numeric
namespace Sudachi

/-! ### The parser: strings fed piecewise, and a separator at the end -/

theorem NumParser.appendAll_append (a : PStr) : ∀ (p : NumParser) (b : PStr), p.appendAll (a ++ b) =
    (match p.appendAll a with
     | (p', true) => p'.appendAll b
     | (p', false) => (p', false)) := by
  induction a with
  | nil => intro p b; rfl
  | cons c cs ih =>
    intro p b
    rw [List.cons_append, appendAll, appendAll]
    rcases h : p.append c with ⟨p1, r⟩
    cases r
    · rfl
    · dsimp only; exact ih p1 b

namespace SNum

/-- Equal up to the unused flag, after normalisation. -/
def Same (n m : SNum) : Prop :=
  n.sig = m.sig ∧ n.pos = m.pos ∧ n.normalizeScale.scale = m.normalizeScale.scale ∧
  n.normalizeScale.point = m.normalizeScale.point

theorem Same.refl (n : SNum) : Same n n := ⟨rfl, rfl, rfl, rfl⟩

theorem normalizeScale_frame (n : SNum) : n.normalizeScale.sig = n.sig ∧ n.normalizeScale.pos = n.pos ∧
    n.normalizeScale.allZero = n.allZero := by
  unfold normalizeScale
  split
  · exact ⟨rfl, rfl, rfl⟩
  · dsimp only
    split <;> exact ⟨rfl, rfl, rfl⟩

theorem WF.add_wf {a b : SNum} (ha : a.WF) (hb : b.WF) : (a.add b).1.WF := by
  rcases h : a.add b with ⟨s, n, r⟩
  obtain ⟨_, _, h3⟩ := ha.add hb h
  cases r
  · unfold SNum.add at h
    split at h
    · cases h
    · split at h
      · cases h
      · dsimp only at h
        split at h
        · cases h
        · injection h with h1 h2
          rw [← h1]
          exact ha.normalize.1
  · exact (h3 rfl).1

theorem normalize_congr {c b : SNum} (q1 : c.pos = b.pos) (q2 : c.scale = b.scale) (q3 : c.point = b.point) :
    c.normalizeScale.scale = b.normalizeScale.scale ∧ c.normalizeScale.point = b.normalizeScale.point := by
  unfold normalizeScale
  rw [q3]
  split
  · exact ⟨q2, q3⟩
  · dsimp only
    rw [q1, q2]
    split <;> simp

theorem Same.add {a b b' : SNum} (hw : b.WF) (hw' : b'.WF) (h : Same b b') : (a.add b).2.2 = (a.add b').2.2 ∧ Same (a.add b).1 (a.add b').1 := by
  obtain ⟨h1, h2, h3, h4⟩ := h
  have hz : b.isZero = b'.isZero := by simp [isZero, h2]
  unfold SNum.add
  rw [hz]
  by_cases hb : b'.isZero = true
  · rw [if_pos hb, if_pos hb]; exact ⟨rfl, Same.refl _⟩
  · rw [if_neg hb, if_neg hb]
    by_cases ha : a.isZero = true
    · rw [if_pos ha, if_pos ha]
      refine ⟨rfl, ?_⟩
      have hp : a.pos = 0 := by simpa [isZero] using ha
      obtain ⟨c1, c2⟩ := normalize_congr (c := { a.write b.sig with scale := b.scale, point := b.point }) (b := b)
        (by simp [write, hp, hw.pos]) rfl rfl
      obtain ⟨d1, d2⟩ := normalize_congr (c := { a.write b'.sig with scale := b'.scale, point := b'.point }) (b := b')
        (by simp [write, hp, hw'.pos]) rfl rfl
      refine ⟨by simp [write, h1], by simp [write, h1], ?_, ?_⟩
      · rw [c1, d1, h3]
      · rw [c2, d2, h4]
    · rw [if_neg ha, if_neg ha]
      have hl : b.intLength.2 = b'.intLength.2 := by
        unfold intLength
        dsimp only
        rw [h4]
        split
        · rfl
        · dsimp only; rw [(normalizeScale_frame b).2.1, (normalizeScale_frame b').2.1, h2, h3]
      have hb1 : b.intLength.1 = b.normalizeScale := by unfold intLength; dsimp only; split <;> rfl
      have hb1' : b'.intLength.1 = b'.normalizeScale := by unfold intLength; dsimp only; split <;> rfl
      rcases hbl : b.intLength with ⟨n, l⟩
      rcases hbl' : b'.intLength with ⟨n', l'⟩
      rw [hbl, hbl'] at hl
      rw [hbl] at hb1
      rw [hbl'] at hb1'
      dsimp only at hl hb1 hb1'
      subst hl
      dsimp only
      split
      · refine ⟨rfl, ?_⟩
        have : n.point = n'.point := by rw [hb1, hb1', h4]
        have h5 : n.scale = n'.scale := by rw [hb1, hb1', h3]
        have h6 : n.sig = n'.sig := by rw [hb1, hb1', (normalizeScale_frame b).1, (normalizeScale_frame b').1, h1]
        rw [this, h5, h6]
        exact Same.refl _
      · exact ⟨rfl, Same.refl _⟩

theorem Same.str {n m : SNum} (h : Same n m) : n.str.2 = m.str.2 := by
  obtain ⟨h1, h2, h3, h4⟩ := h
  have hz : n.isZero = m.isZero := by simp [isZero, h2]
  have hn := normalizeScale_frame n
  have hm := normalizeScale_frame m
  unfold SNum.str
  rw [hz]
  by_cases hb : m.isZero = true
  · rw [if_pos hb, if_pos hb]
  · rw [if_neg hb, if_neg hb]
    rcases hN : n.normalizeScale with ⟨ns, np, nsc, npt, nz⟩
    rcases hM : m.normalizeScale with ⟨ms, mp, msc, mpt, mz⟩
    rw [hN] at h3 h4 hn
    rw [hM] at h3 h4 hm
    dsimp only at h3 h4 hn hm
    obtain ⟨a1, a2, _⟩ := hn
    obtain ⟨b1, b2, _⟩ := hm
    have e1 : ns = ms := by rw [a1, b1, h1]
    have e2 : np = mp := by rw [a2, b2, h2]
    subst h3 h4 e1 e2
    dsimp only
    by_cases hs : nsc > 0
    · rw [if_pos hs, if_pos hs]
      unfold fillZero
      rw [if_pos hs, if_pos hs]
      rfl
    · rw [if_neg hs, if_neg hs]
      by_cases hp : npt ≥ 0
      · rw [if_pos hp, if_pos hp]
        by_cases h0 : npt = 0
        · simp only [insertSig, write, truncate, h0, if_true]
          split
          · rfl
          · split
            · rfl
            · split <;> rfl
        · simp only [insertSig, write, truncate, h0, if_false]
          split
          · rfl
          · split
            · rfl
            · split <;> rfl
      · rw [if_neg hp, if_neg hp]

end SNum

open SNum

/-- The total after `done`, whatever it answers. -/
def NumParser.doneTotal (p : NumParser) : SNum :=
  if (p.subTotal.add p.tmp).2.2 then (p.total.add (p.subTotal.add p.tmp).1).1 else p.total

theorem NumParser.done_total (p : NumParser) : p.done.1.total = p.doneTotal := by
  unfold done doneTotal
  rcases h : p.subTotal.add p.tmp with ⟨s, n, r⟩
  cases r
  · dsimp only
    split
    · rfl
    · split <;> rfl
  · dsimp only
    rcases h2 : p.total.add s with ⟨s2, n2, r2⟩
    dsimp only
    split
    · rfl
    · split <;> rfl

theorem PInv.doneTotal_wf {p : NumParser} {q : Calc} (h : PInv p q) : p.doneTotal.WF := by
  unfold NumParser.doneTotal
  split
  · exact h.total.add_wf (h.sub.add_wf h.tmp)
  · exact h.total

/-- A separator at the end does not change the total. -/
theorem hang_total {p p' : NumParser} {q : Calc} {c : Nat} (h : PInv p q) (hc : c = 44 ∨ c = 46)
    (ha : p.append c = (p', true)) : Same p'.doneTotal p.doneTotal := by
  rcases hc with rfl | rfl
  · change p.appendComma = _ at ha
    unfold NumParser.appendComma at ha
    split at ha
    · cases ha
    · injection ha with ha _
      subst ha
      exact Same.refl _
  · have ha' : p.appendPoint = (p', true) := ha
    have hi := h.point ha'
    change p.appendPoint = _ at ha
    unfold NumParser.appendPoint at ha
    dsimp only at ha
    split at ha
    · cases ha
    · split at ha
      · cases ha
      · split at ha
        · cases ha
        · rename_i tmp hsp
          injection ha with ha _
          subst ha
          unfold setPoint at hsp
          split at hsp
          · rename_i hcnd
            injection hsp with hsp _
            subst hsp
            have hS : Same { p.tmp with point := (p.tmp.pos : Int) } p.tmp := by
              refine ⟨rfl, rfl, ?_, ?_⟩
              · unfold normalizeScale
                rw [if_neg (by simp only []; omega), if_pos hcnd.2]
                dsimp only
                rw [if_neg (by omega)]
                dsimp only
                omega
              · unfold normalizeScale
                rw [if_neg (by simp only []; omega), if_pos hcnd.2]
                dsimp only
                rw [if_neg (by omega)]
                dsimp only
                have := h.tmp.point
                omega
            have hw : SNum.WF { p.tmp with point := (p.tmp.pos : Int) } := hi.tmp
            obtain ⟨r1, s1⟩ := Same.add (a := p.subTotal) hw h.tmp hS
            unfold NumParser.doneTotal
            dsimp only
            rw [r1]
            split
            · exact (Same.add (a := p.total) (h.sub.add_wf hw) (h.sub.add_wf h.tmp) s1).2
            · exact Same.refl _
          · cases hsp

/-- What the plugin reads off the parser: the number if the digits form one, else some numeral. -/
theorem read_number {S tail : PStr} (htail : tail = [] ∨ tail = [44] ∨ tail = [46]) {p : NumParser}
    (h : NumParser.init.appendAll (S ++ tail) = (p, true)) (hdone : tail = [] → p.done.2 = true) :
    ∃ norm, p.done.1.getNormalized.2 = .ok norm ∧ Canonical norm ∧
      (parseNumber S = some (.ok norm) ∨ (tail ≠ [] ∧ parseNumber S = none)) := by
  obtain ⟨q, _, hi⟩ := PInv.start.run h
  have hgn : p.done.1.getNormalized.2 = p.doneTotal.str.2 := by
    rw [← p.done_total]; rfl
  obtain ⟨norm, hn, _, hcan, _⟩ := hi.doneTotal_wf.str
  refine ⟨norm, by rw [hgn, hn], hcan, ?_⟩
  rw [NumParser.appendAll_append] at h
  rcases h1 : NumParser.init.appendAll S with ⟨p1, r1⟩
  rw [h1] at h
  cases r1
  · cases h
  · dsimp only at h
    obtain ⟨q1, _, hi1⟩ := PInv.start.run h1
    have hsame : Same p.doneTotal p1.doneTotal := by
      rcases htail with rfl | ht
      · injection h with h _
        rw [h]; exact Same.refl _
      · have : ∃ c, (c = 44 ∨ c = 46) ∧ tail = [c] := by
          rcases ht with rfl | rfl
          · exact ⟨44, .inl rfl, rfl⟩
          · exact ⟨46, .inr rfl, rfl⟩
        obtain ⟨c, hc, rfl⟩ := this
        unfold NumParser.appendAll at h
        split at h
        · rename_i p2 hp2
          injection h with h _
          rw [← h]
          exact hang_total hi1 hc hp2
        · cases h
    unfold parseNumber
    rw [h1]
    dsimp only
    rcases hd1 : p1.done with ⟨p1', r⟩
    cases r
    · right
      refine ⟨?_, rfl⟩
      intro ht
      subst ht
      injection h with h _
      have := hdone rfl
      rw [← h, hd1] at this
      cases this
    · left
      have : p1'.getNormalized.2 = p1.doneTotal.str.2 := by
        rw [← p1.done_total, hd1]; rfl
      dsimp only
      rw [this, ← hsame.str, hn]

end Sudachi
