/-
C71: which sources build.
-/
import Verif.Lemmas.Buildable5
import Verif.Lemmas.SampleInstall
import Verif.Props.Lexicon
namespace Sudachi
open DictBuilder

variable {D : Darts} {sys : Option SysDict} {src : DictSource} {cs : List Cols} {T : Nat}

/-- **C71** A source with rows that can be read, that fits the file format and is not too large, is built if and only if it can
be written: all rows are well-formed, numbers and strings fit, references find their words, at most 255 words have the same
headword and at most 32767 parts of speech are new. -/
theorem C71_builds_iff (hS : SourceOk src.header src.rows src.matrix) (hc : RowsRead src.rows cs) (hroom : src.HasRoom D sys cs T)
    (hk : ∀ s, sys = some s → s.KnowsPos) : (∃ b, src.Builds D sys b) ↔ src.Writable sys cs := by
  constructor
  · rintro ⟨b, _, ops, h, _⟩
    exact build_writable hS hc hk h
  · intro hw
    obtain ⟨ops, h⟩ := build_total hS hc hroom hw
    exact ⟨_, hS, ops, h, rfl⟩

/-- **C71** The rows of a source that is built can be read. -/
theorem C71_rows {b : Bytes} (h : src.Builds D sys b) : ∃ cs, RowsRead src.rows cs := by
  obtain ⟨_, ops, h, _⟩ := h
  obtain ⟨P, hB, _⟩ := build_calls h
  exact rows_readable hB.rows

/-- **C71** What it needs to know about the system dictionary holds of every compiled one. -/
theorem C71_system {header : Header} {rows : List (List PStr)} {matrix : Option (PStr × List PStr)} {d : BinDict} (hD : D.Ok)
    (hS : SourceOk header rows matrix) (hC : Compiled D none header rows matrix d) (hf : AllFit rows) (depth : Nat) :
    (d.toSysDict D depth).KnowsPos := by
  intro h p r w hp hw
  obtain ⟨g, F⟩ := compiled_facts hD hS hC
  have hpos : (d.toSysDict D depth).posList = g.posList := by unfold BinDict.toSysDict; rw [F.grammar]
  rw [hpos] at hp
  have hlt : w < d.lexicon.size := (C34_system hD hS hC depth).getWordId h p r w hw
  rcases getWordId_spec (show d.lexicon.getWordId D depth h p r = .ok w from hw) with ⟨v, rfl, wi, h1, _, h3, _⟩ | ⟨rfl, _⟩
  · exfalso
    obtain ⟨c, hc⟩ := F.rowsRead v (by have := F.size; omega)
    obtain ⟨g', hg, hI⟩ := C40_round_trip hD hS hC hc (hf v c hc)
    rw [F.grammar] at hg
    cases hg
    obtain ⟨h4, h5⟩ := (hI depth wi h1).pos
    have h6 := (List.getElem?_eq_some_iff.1 h5).1
    simp only [sysPos, List.nil_append] at h6
    omega
  · omega

/-- **C71** A source that can be written gives a file that loads, with its words, connection costs and lookups. -/
theorem C71_usable (hD : D.Ok) (hS : SourceOk src.header src.rows src.matrix) (hc : RowsRead src.rows cs) (hroom : src.HasRoom D sys cs T)
    (hw : src.Writable sys cs) : ∃ b d, src.Builds D sys b ∧ readDictionary b = .ok d ∧
      Compiled D sys src.header src.rows src.matrix d ∧ d.header = src.header := by
  obtain ⟨ops, h⟩ := build_total hS hc hroom hw
  obtain ⟨P, hB, hf⟩ := DictBuilder.build_ok h
  obtain ⟨g, h1, _⟩ := load_built hB hS hD
  rw [← hf] at h1
  exact ⟨_, _, ⟨hS, ops, h, rfl⟩, h1, ⟨ops, h, h1⟩, rfl⟩

/-- **C71** The simple trie library always has room for its bound. -/
theorem C71_room (h : 4 * frontSize sys src cs (SimpleTrie.bound cs) + cs.length + (cs.map Cols.infoSize).sum < 2 ^ 31) :
    src.HasRoom SimpleTrie.trie sys cs (SimpleTrie.bound cs) :=
  ⟨fun _ h1 h2 => SimpleTrie.room h1 h2, h⟩

namespace Sample

theorem rows_read_cols : RowsRead rows [cols0, cols1] := by
  refine ⟨rfl, ?_⟩
  intro w c h
  match w, h with
  | 0, h => cases h; exact row0
  | 1, h => cases h; exact row1

theorem sample_room : DictSource.HasRoom SimpleTrie.trie none ⟨header, rows, matrix⟩ [cols0, cols1] (SimpleTrie.bound [cols0, cols1]) :=
  C71_room (by decide +kernel)

/-- The sample can be written. -/
example : DictSource.Writable none ⟨header, rows, matrix⟩ [cols0, cols1] :=
  (C71_builds_iff source_ok rows_read_cols sample_room (fun _ h => (by cases h))).1 ⟨_, system_builds⟩

/-- The sample of a user dictionary can be written, with the sample as system dictionary. -/
example : DictSource.Writable (some sysDict) ⟨userHeader, userRows1, none⟩ [userCols0, userCols1] := by
  obtain ⟨d, hd, hC⟩ := system_compiled
  refine (C71_builds_iff (T := SimpleTrie.bound [userCols0, userCols1]) user1_source ⟨rfl, ?_⟩ (C71_room (by decide +kernel)) ?_).1 ⟨_, user1_builds⟩
  · intro w c h
    match w, h with
    | 0, h => cases h; exact urow0
    | 1, h => cases h; exact urow1
  · intro s hs
    rw [← Option.some.inj hs, sysDict_eq (compiled_eq hC)]
    exact C71_system SimpleTrie.ok source_ok hC all_fit 9

/-- The sample with a reference to a word that there is not. -/
def danglingCols : Cols := { cols1 with aSplit := [48, 47, 50] }
def danglingRows : List (List PStr) := [cols0.list, danglingCols.list]

theorem dangling1 : RowReads danglingCols.list danglingCols := (by decide +kernel : decodeCols danglingCols.list = .ok danglingCols.list)

/-- It is refused. -/
example : ¬ ∃ b, DictSource.Builds SimpleTrie.trie none ⟨header, danglingRows, matrix⟩ b := by
  rintro ⟨b, hb⟩
  have hrd : RowsRead danglingRows [cols0, danglingCols] := by
    refine ⟨rfl, ?_⟩
    intro w c h
    match w, h with
    | 0, h => cases h; obtain ⟨_, e, h0⟩ := row0; cases e; exact ⟨_, rfl, h0⟩
    | 1, h => cases h; exact ⟨_, rfl, dangling1⟩
  have h := (C71_builds_iff (T := SimpleTrie.bound [cols0, danglingCols]) hb.1 hrd (C71_room (by decide +kernel)) (fun _ h => (by cases h))).1 ⟨b, hb⟩
  have h2 := (h.rows danglingCols (by simp)).aSplit
  rcases h2 with h2 | h2
  · revert h2; decide
  · have h3 := h2 [50] (by decide)
    rw [if_pos (by decide)] at h3
    obtain ⟨v, h4, _, h5⟩ := h3
    have : pyInt (if ([50] : PStr).head? = some 85 then ([50] : PStr).tail else [50]) = .ok 2 := by decide +kernel
    rw [this] at h4
    have h4 : (2 : Int) = v := Except.ok.inj h4
    simp only [danglingRows, List.length_cons, List.length_nil] at h5
    omega

end Sample
end Sudachi
