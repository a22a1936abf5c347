/-
A small source of a system dictionary, used in the examples: the words `a` (id 0) and `ab` (id 1), the second with an A
split `0/0`, word structure `0`, dictionary form `a` and synonym groups 7 and 8.
-/
import Verif.Spec.Source
import Verif.Spec.SimpleTrie
import Verif.Lemmas.Rows
namespace Sudachi.Sample

def header : Header := ⟨(SYSTEM_DICT_VERSION_2 : Nat), 100, [100]⟩

/-- `a,1,1,5,a,p,p,p,p,p,p,,,*,A,*,*,*` -/
def cols0 : Cols := ⟨[97], [49], [49], [53], [97], [112], [112], [112], [112], [112], [112], [], [], [42], [65], [42], [42], [42], []⟩

/-- `ab,0,1,-3,ab,p,p,p,p,p,q,r,n,0,C,0/0,*,0,7/8` -/
def cols1 : Cols := ⟨[97, 98], [48], [49], [45, 51], [97, 98], [112], [112], [112], [112], [112], [113], [114], [110], [48], [67],
  [48, 47, 48], [42], [48], [[55, 47, 56]]⟩

def rows : List (List PStr) := [cols0.list, cols1.list]

/-- `2 2`, `0 1 5`, `1 1 -2`, each with its newline -/
def matrix : Option (PStr × List PStr) := some ([50, 32, 50, 10], [[48, 32, 49, 32, 53, 10], [49, 32, 49, 32, 45, 50, 10]])

theorem row0 : RowIs rows 0 cols0 := ⟨_, rfl, (by decide +kernel : decodeCols cols0.list = .ok cols0.list)⟩
theorem row1 : RowIs rows 1 cols1 := ⟨_, rfl, (by decide +kernel : decodeCols cols1.list = .ok cols1.list)⟩

theorem list_inj {c c' : Cols} (h : c.list = c'.list) : c = c' := by
  cases c; cases c'
  simp only [Cols.list, List.cons.injEq] at h
  obtain ⟨a0, a1, a2, a3, a4, a5, a6, a7, a8, a9, a10, a11, a12, a13, a14, a15, a16, a17, a18⟩ := h
  subst a0 a1 a2 a3 a4 a5 a6 a7 a8 a9 a10 a11 a12 a13 a14 a15 a16 a17 a18
  rfl

theorem reads_unique {row : List PStr} {c c' : Cols} (h : RowReads row c) (h' : RowReads row c') : c = c' := by
  unfold RowReads at h h'
  rw [h] at h'
  injection h' with h'
  exact list_inj h'

/-- Every row of the sample is one of the two. -/
theorem mem_rows {row : List PStr} (hm : row ∈ rows) {c : Cols} (hr : RowReads row c) : c = cols0 ∨ c = cols1 := by
  simp only [rows, List.mem_cons, List.not_mem_nil, or_false] at hm
  obtain ⟨_, e0, h0⟩ := row0
  obtain ⟨_, e1, h1⟩ := row1
  cases e0
  cases e1
  rcases hm with rfl | rfl
  · exact .inl (reads_unique hr h0)
  · exact .inr (reads_unique hr h1)

theorem source_ok : SourceOk header rows matrix where
  header := ⟨.inl rfl, by decide, by decide⟩
  pos row hm c hr s hs := by
    rcases mem_rows hm hr with rfl | rfl <;>
      simp only [Cols.pos, cols0, cols1, List.mem_cons, List.not_mem_nil, or_false] at hs
    all_goals rcases hs with rfl | rfl | rfl | rfl | rfl | rfl <;> decide
  matrix := ⟨2, by decide +kernel, by decide +kernel, by decide +kernel⟩

theorem all_fit : AllFit rows := by
  intro w c ⟨row, h1, h2⟩
  rcases mem_rows (List.mem_of_getElem? h1) h2 with rfl | rfl <;> constructor <;> decide

/-- The build of the sample. -/
def built : Out := (DictBuilder.init none).build SimpleTrie.trie header rows matrix

theorem built_ok : built.2 = .ok () := by decide +kernel

theorem loads : (readDictionary (runOps built.1).data).isOk = true := by decide +kernel

theorem compiled : ∃ d, Compiled SimpleTrie.trie none header rows matrix d := by
  have h := loads
  cases hd : readDictionary (runOps built.1).data with
  | error e => rw [hd] at h; cases h
  | ok d => exact ⟨d, built.1, Prod.ext rfl built_ok, hd⟩

/-- What the build of the sample gives can be computed. -/
theorem compiled_eq {d : BinDict} (h : Compiled SimpleTrie.trie none header rows matrix d) :
    readDictionary (runOps built.1).data = .ok d := by
  obtain ⟨ops, h1, h2⟩ := h
  have : built = (ops, .ok ()) := h1
  rw [this]
  exact h2

theorem info1_computed : ((readDictionary (runOps built.1).data).bind fun d => d.lexicon.wordInfo 5 1).isOk = true := by
  decide +kernel

theorem info1 {d : BinDict} (h : Compiled SimpleTrie.trie none header rows matrix d) : ∃ info, d.lexicon.wordInfo 5 1 = .ok info := by
  have h' := info1_computed
  rw [compiled_eq h] at h'
  have h' : (d.lexicon.wordInfo 5 1).isOk = true := h'
  cases hi : d.lexicon.wordInfo 5 1 with
  | error e => rw [hi] at h'; cases h'
  | ok info => exact ⟨info, rfl⟩

theorem dic1 : cols1.DicForm 0 := .inr ⟨by decide, by decide +kernel⟩

theorem chain1 : ChainEnds rows 1 1 :=
  .next (v := 0) ⟨_, row1, dic1⟩ (by decide) (.here ⟨_, row0, .inl ⟨rfl, rfl⟩⟩ (.inl (by decide)))

/-- Two words that refer to each other as dictionary forms; the second has left id `-01`. -/
def cyclicCols0 : Cols := { cols0 with dicForm := [49] }
def cyclicCols1 : Cols := { cols0 with left := [45, 48, 49], headword := [98], surface := [98], dicForm := [48] }
def cyclicRows : List (List PStr) := [cyclicCols0.list, cyclicCols1.list]

theorem cyclic0 : RowIs cyclicRows 0 cyclicCols0 := ⟨_, rfl, (by decide +kernel : decodeCols cyclicCols0.list = .ok cyclicCols0.list)⟩
theorem cyclic1 : RowIs cyclicRows 1 cyclicCols1 := ⟨_, rfl, (by decide +kernel : decodeCols cyclicCols1.list = .ok cyclicCols1.list)⟩

theorem cyclic_mem {row : List PStr} (hm : row ∈ cyclicRows) {c : Cols} (hr : RowReads row c) : c = cyclicCols0 ∨ c = cyclicCols1 := by
  simp only [cyclicRows, List.mem_cons, List.not_mem_nil, or_false] at hm
  obtain ⟨_, e0, h0⟩ := cyclic0
  obtain ⟨_, e1, h1⟩ := cyclic1
  cases e0
  cases e1
  rcases hm with rfl | rfl
  · exact .inl (reads_unique hr h0)
  · exact .inr (reads_unique hr h1)

theorem cyclic_source_ok : SourceOk header cyclicRows none where
  header := source_ok.header
  pos row hm c hr s hs := by
    rcases cyclic_mem hm hr with rfl | rfl <;>
      simp only [Cols.pos, cyclicCols0, cyclicCols1, cols0, List.mem_cons, List.not_mem_nil, or_false] at hs
    all_goals rcases hs with rfl | rfl | rfl | rfl | rfl | rfl <;> decide
  matrix := trivial

theorem cyclic_fit : AllFit cyclicRows := by
  intro w c ⟨row, h1, h2⟩
  rcases cyclic_mem (List.mem_of_getElem? h1) h2 with rfl | rfl <;> constructor <;> decide

def cyclicBuilt : Out := (DictBuilder.init none).build SimpleTrie.trie header cyclicRows none

theorem cyclic_ok : cyclicBuilt.2 = .ok () := by decide +kernel

theorem cyclic_loads : (readDictionary (runOps cyclicBuilt.1).data).isOk = true := by decide +kernel

theorem cyclic_compiled : ∃ d, Compiled SimpleTrie.trie none header cyclicRows none d := by
  have h := cyclic_loads
  cases hd : readDictionary (runOps cyclicBuilt.1).data with
  | error e => rw [hd] at h; cases h
  | ok d => exact ⟨d, cyclicBuilt.1, Prod.ext rfl cyclic_ok, hd⟩

/-- A row with a surface of 20000 characters outside the basic plane. -/
def longCols : Cols := { cols0 with surface := List.replicate 20000 0x20BB7 }

theorem surface_reads (s : PStr) (h : 92 ∉ s) : RowReads { cols0 with surface := s }.list { cols0 with surface := s } := by
  apply decodeCols_plain
  intro t ht
  simp only [Cols.list, cols0, List.mem_cons, List.not_mem_nil, or_false] at ht
  rcases ht with rfl | rfl | rfl | rfl | rfl | rfl | rfl | rfl | rfl | rfl | rfl | rfl | rfl | rfl | rfl | rfl | rfl | rfl
  all_goals first
    | exact h
    | decide

theorem long_reads : RowReads longCols.list longCols :=
  surface_reads _ (fun h => by have := List.eq_of_mem_replicate h; omega)

theorem long_units : units longCols.surface = 40000 := by
  have : ∀ n, units (List.replicate n 0x20BB7) = 2 * n := by
    intro n
    induction n with
    | zero => rfl
    | succ n ih =>
      simp only [units, List.replicate_succ, List.flatMap_cons, List.length_append] at ih ⊢
      rw [ih, show (utf16Units 0x20BB7).length = 2 from rfl]
      omega
  exact this 20000

theorem long_ok : longCols.Ok where
  headword := by decide
  encodable := by decide
  headwordBytes := by decide
  surface := by
    show (List.replicate 20000 0x20BB7).length ≤ 32767
    rw [List.length_replicate]
    omega
  reading := by decide
  normalized := by decide
  left := ⟨1, by decide +kernel⟩
  right := ⟨1, by decide +kernel⟩
  cost := ⟨5, by decide +kernel⟩
  aSplit := by decide
  bSplit := by decide
  structureSplit := by decide
  aUnit := fun _ => ⟨rfl, rfl⟩
  synonyms := ⟨[], rfl⟩
  dicForm := ⟨-1, .inl ⟨rfl, rfl⟩⟩

end Sudachi.Sample
