/-
The texts of the words of a result, and of the lines printed, can be written in UTF-8.
-/
import Verif.Lemmas.Encodable
import Verif.Lemmas.Printing
import Verif.Lemmas.Dump3
import Verif.Props.PathRewrite
import Verif.Props.Numeric
namespace Sudachi

theorem Canonical.encodable {s : PStr} (h : Canonical s) : Encodable s := by
  have hd : ∀ {s : PStr}, AllDigits s → Encodable s := fun h c hc => encodable_iff.mpr (by have := h c hc; omega)
  rcases h with ⟨_, h⟩ | ⟨a, b, rfl, _, h1, h2, _⟩
  · exact hd h
  · exact (hd h1).append (.cons (by decide) (hd h2))

theorem Coarsens.mem_block {J : List NodeData → NodeData → Prop} {p p' : List NodeData} (h : Coarsens J p p') :
    ∀ d ∈ p', d ∈ p ∨ ∃ b, J b d ∧ ∀ x ∈ b, x ∈ p := by
  induction h with
  | nil => intro d hd; cases hd
  | keep x _ ih =>
    intro d hd
    rcases List.mem_cons.mp hd with rfl | hd
    · exact .inl (by simp)
    · rcases ih d hd with h | ⟨b, h1, h2⟩
      · exact .inl (by simp [h])
      · exact .inr ⟨b, h1, fun x hx => by simp [h2 x hx]⟩
  | join block n hj _ ih =>
    intro d hd
    rcases List.mem_cons.mp hd with rfl | hd
    · exact .inr ⟨_, hj, fun x hx => by simp [hx]⟩
    · rcases ih d hd with h | ⟨b, h1, h2⟩
      · exact .inl (by simp [h])
      · exact .inr ⟨b, h1, fun x hx => by simp [h2 x hx]⟩

/-- The texts of the word of a node. -/
def NodeEncodable (d : NodeData) : Prop := ∀ info, d.extra = some info → info.Encodable

theorem unk_encodable : WordInfo.unk.Encodable := by
  have : Encodable nullSurface := by unfold Encodable nullSurface; decide
  exact ⟨this, this, this, this⟩

theorem NodeEncodable.info {lex : Lex} (hlex : lex.Encodable) {d : NodeData} (h : NodeEncodable d) {info : WordInfo}
    (hw : nodeWordInfo lex d = .ok info) : info.Encodable := by
  unfold nodeWordInfo at hw
  split at hw
  · cases hw; exact unk_encodable
  · split at hw
    · rename_i w hx; cases hw; exact h _ hx
    · exact hlex _ _ hw

theorem infosOf_encodable {lex : Lex} (hlex : lex.Encodable) {block : List NodeData} {infos : List WordInfo} (hb : ∀ d ∈ block, NodeEncodable d)
    (h : InfosOf lex block infos) : ∀ w ∈ infos, w.Encodable := by
  intro w hw
  have : Except.ok w ∈ block.map (nodeWordInfo lex) := by rw [h]; exact List.mem_map_of_mem hw
  obtain ⟨d, hd, he⟩ := List.mem_map.mp this
  exact (hb d hd).info hlex he

theorem Inserted.encodable {lex : Lex} {plugins : List OovPlugin} {bd : Builder} {catOf : Nat → CatSet} {t : InputText} (B : Built bd catOf t)
    {d : NodeData} (h : Inserted lex plugins t bd.modified d) : NodeEncodable d := by
  intro info hi
  rcases h.offered with ⟨_, h2, _⟩ | ⟨h1, p, hp, has, ns, h2, h3⟩
  · rw [h2] at hi; cases hi
  · obtain ⟨k, hk, hb, _⟩ := B.bow_char h.bow
    rw [hb] at h2
    obtain ⟨o, s, info', e1, e2, e3, e4⟩ := getOov_info B hk h2 d h3
    rw [hi] at e2
    cases e2
    have hs : Encodable s := by
      unfold InputText.getSubstring at e3
      split at e3
      · cases e3
      split at e3
      · cases e3
      obtain ⟨_, _, e3⟩ := bind_ok e3
      obtain ⟨_, _, e3⟩ := bind_ok e3
      cases e3
      rw [B.modif]
      exact Encodable.slice (List.all_eq_true.mp B.enc) _ _
    exact ⟨by rw [e4.surface]; exact hs, by rw [e4.normalized]; exact hs, by rw [e4.form]; exact hs, by rw [e4.reading]; exact .nil⟩

theorem map_encodable {infos : List WordInfo} (h : ∀ w ∈ infos, w.Encodable) {f : WordInfo → PStr} (hf : ∀ w : WordInfo, w.Encodable → Encodable (f w)) :
    Encodable (infos.map f).flatten := by
  refine Encodable.flatten fun s hs => ?_
  obtain ⟨w, hw, rfl⟩ := List.mem_map.mp hs
  exact hf w (h w hw)

theorem rewritePath_encodable {lex : Lex} (hlex : lex.Encodable) {t : InputText} {L : Lattice} (hL : L.EndsRight) (hC : ∀ d, L.Cand d → NodeEncodable d)
    {fuel : Nat} {ps : List PathPlugin} : ∀ {path path' : List NodeData} {n : Nat}, rewritePath lex fuel t L ps path = .ok path' →
      Tiles 0 n path → (∀ d ∈ path, NodeEncodable d) → ∀ d ∈ path', NodeEncodable d := by
  induction ps with
  | nil => intro path path' n h _ h2; cases h; exact h2
  | cons p ps ih =>
    intro path path' n h h1 h2
    simp only [rewritePath, bind, Except.bind] at h
    cases hp : p.rewrite lex fuel t L path with
    | error e => rw [hp] at h; cases h
    | ok q =>
      rw [hp] at h
      have ht := (PathPlugin.coarsens hL hp).tiles (fun b n hj => by rcases hj with h | h <;> exact h.1) h1
      refine ih h ht ?_
      intro d hd
      cases p with
      | numeric cfg =>
        rcases (C29_only_coarsens cfg lex fuel t path q hp).mem_block d hd with hm | ⟨b, hj, hbm⟩
        · exact h2 d hm
        · intro info hinfo
          obtain ⟨_, infos, norm, f1, _, hc, f2, f3⟩ := hj
          have hinf := infosOf_encodable hlex (fun x hx => h2 x (hbm x hx)) f1
          obtain ⟨w, g1, g2, _, _, g3, g4, g5, _⟩ := hc.info
          rw [hinfo] at g1
          cases g1
          refine ⟨by rw [g2]; exact map_encodable hinf fun w h => h.surface, ?_, by rw [g4]; exact map_encodable hinf fun w h => h.form,
            by rw [g5]; exact map_encodable hinf fun w h => h.reading⟩
          rw [g3]
          cases hn : cfg.normalize with
          | false => rw [(f2 hn).2]; exact map_encodable hinf fun w h => h.normalized
          | true =>
            rcases (f3 hn).2 with hpn | ⟨_, hcan, _⟩
            · obtain ⟨out, e1, e2⟩ := C27_canonical _ _ hpn
              cases e1
              exact e2.encodable
            · exact hcan.encodable
      | katakana cfg =>
        rcases (C31_only_coarsens cfg lex t L hL path q hp).mem_block d hd with hm | ⟨b, hj, hbm⟩
        · exact h2 d hm
        · rcases hj.node with ⟨ns, g1, bf, x, af, g2, rfl, _⟩ | ⟨_, ho, _, infos, w, f1, g1, g2, _, _, g4, g5, g6, _⟩
          · obtain ⟨all, k1, k2⟩ := getNodes_mem g1
            exact hC _ ⟨_, all, x, by have := ht.mem _ hd; omega, k1, (k2 x (by rw [g2]; simp)).1, rfl⟩
          · intro info hinfo
            rw [hinfo] at g1
            cases g1
            have hinf := infosOf_encodable hlex (fun x hx => h2 x (hbm x hx)) f1
            have hs : Encodable w.surface := by rw [g2]; exact map_encodable hinf fun w h => h.surface
            exact ⟨hs, by rw [g4]; exact hs, by rw [g5]; exact hs, by rw [g6]; exact .nil⟩

end Sudachi
