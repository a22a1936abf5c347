/-
The lines of a dump are those printed: converses for Lemmas/Dump.
-/
import Verif.Lemmas.Dump2
namespace Sudachi

theorem dumpNodes_of {conn : Conn} {g : Grammar} {lex : Lex} {L : Lattice} : ∀ {ns : List LNode} {k : Nat} {out : List PStr},
    out.length = ns.length → (∀ (i : Nat) n line, ns[i]? = some n → out[i]? = some line → NodeLine conn g lex L (k + i + 1) n.data line) →
    dumpNodes conn g lex L k ns = (out, .ok ())
  | [], k, out, hlen, _ => by rw [List.length_eq_zero_iff.mp hlen]; rfl
  | n :: ns, k, [], hlen, _ => by cases hlen
  | n :: ns, k, line :: out, hlen, h => by
    have h0 := dumpNode_iff.mpr (h 0 n line rfl rfl)
    have h1 := dumpNodes_of (k := k + 1) (ns := ns) (out := out) (Nat.succ.inj hlen) (fun i n l hn hl => by
      have := h (i + 1) n l hn hl
      rw [show k + (i + 1) + 1 = k + 1 + i + 1 by omega] at this
      exact this)
    unfold dumpNodes
    rw [show k + 1 = k + 0 + 1 from rfl, h0]
    dsimp only
    rw [show k + 0 + 1 = k + 1 from rfl, h1]

theorem dumpEnds_of {conn : Conn} {g : Grammar} {lex : Lex} {L : Lattice} : ∀ {e k : Nat} {ns : List LNode} {out : List PStr},
    EndsDown L e ns → out.length = ns.length →
    (∀ (i : Nat) n line, ns[i]? = some n → out[i]? = some line → NodeLine conn g lex L (k + i + 1) n.data line) →
    dumpEnds conn g lex L e k = (out, .ok ())
  | 0, k, ns, out, hns, hlen, _ => by
    have : ns = [] := hns
    subst this
    rw [List.length_eq_zero_iff.mp hlen]
    rfl
  | e + 1, k, ns, out, hns, hlen, h => by
    obtain ⟨here, rest, h1, h2, rfl⟩ := hns
    have hp : pyGet L.endLists e = .ok here := by unfold pyGet; rw [h1]
    rw [List.length_append] at hlen
    have e1 := dumpNodes_of (conn := conn) (g := g) (lex := lex) (L := L) (k := k) (ns := here) (out := out.take here.length)
      (by rw [List.length_take]; omega) (fun i n line hn hl => by
        have hi := (List.getElem?_eq_some_iff.mp hn).1
        refine h i n line (by rw [List.getElem?_append_left hi]; exact hn) ?_
        rw [List.getElem?_take_of_lt hi] at hl
        exact hl)
    have e2 := dumpEnds_of (conn := conn) (g := g) (lex := lex) (k := k + here.length) (out := out.drop here.length) h2
      (by rw [List.length_drop]; omega) (fun i n line hn hl => by
        rw [List.getElem?_drop] at hl
        have := h (here.length + i) n line (by rw [List.getElem?_append_right (by omega), show here.length + i - here.length = i by omega]; exact hn) hl
        rw [show k + (here.length + i) + 1 = k + here.length + i + 1 by omega] at this
        exact this)
    unfold dumpEnds
    rw [hp]
    dsimp only
    rw [e1]
    dsimp only
    rw [e2, List.take_append_drop]

theorem dump_of {conn : Conn} {g : Grammar} {lex : Lex} {L : Lattice} {out : List PStr} (h : LatticeLines conn g lex L out) :
    L.dump conn g lex = (out, .ok ()) := by
  obtain ⟨eos, nodes, h1, h2, h3, h4⟩ := h
  cases out with
  | nil => cases h3
  | cons line out =>
    have e1 := dumpNodes_of (conn := conn) (g := g) (lex := lex) (L := L) (k := 0) (ns := [eos]) (out := [line]) rfl (fun i n l hn hl => by
      cases i with
      | zero => exact h4 0 n l hn hl
      | succ i => simp at hn)
    have e2 := dumpEnds_of (conn := conn) (g := g) (lex := lex) (k := 1) (out := out) h2 (Nat.succ.inj h3) (fun i n l hn hl => by
      have := h4 (i + 1) n l hn hl
      rw [show i + 1 + 1 = 1 + i + 1 by omega] at this
      exact this)
    unfold Lattice.dump
    rw [h1]
    dsimp only
    rw [e1]
    dsimp only
    rw [e2]
    rfl

theorem dumpPath_of {lex : Lex} : ∀ {path : List NodeData} {k : Nat} {out : List PStr}, out.length = path.length →
    (∀ (i : Nat) n line, path[i]? = some n → out[i]? = some line → ∃ surface, SurfaceShown lex n surface ∧
      line = dec ((k + i : Nat) : Int) ++ lit ": " ++ spaced [dec n.begin_, dec n.end_, surface ++ lit "(" ++ dec n.wordId ++ lit ")",
        dec n.leftId, dec n.rightId, dec n.cost] ++ [0xFFFF]) →
    dumpPath lex k path = (out, .ok ())
  | [], k, out, hlen, _ => by rw [List.length_eq_zero_iff.mp hlen]; rfl
  | n :: path, k, [], hlen, _ => by cases hlen
  | n :: path, k, line :: out, hlen, h => by
    obtain ⟨surface, h0, hline⟩ := h 0 n line rfl rfl
    have e0 := nodeStr_iff.mpr ⟨surface, h0, rfl⟩
    have h1 := dumpPath_of (lex := lex) (k := k + 1) (path := path) (out := out) (Nat.succ.inj hlen) (fun i n l hn hl => by
      have := h (i + 1) n l hn hl
      rw [show k + (i + 1) = k + 1 + i by omega] at this
      exact this)
    unfold dumpPath
    rw [e0]
    dsimp only
    rw [h1, hline]
    have e2 : lit ": " = [58, 32] := by decide
    rw [e2, intStr_eq]
    rfl

end Sudachi
