/-
Two small sources of user dictionaries for the sample, used in the examples.
-/
import Verif.Lemmas.Sample
import Verif.Lemmas.Compiled
import Verif.Model.Dictionary
namespace Sudachi.Sample

/-- The file of the system dictionary. -/
def systemFile : Bytes := (runOps built.1).data

/-- The system dictionary as the user-dictionary builder sees it. -/
def sysDict : SysDict :=
  match readDictionary systemFile with
  | .ok d => d.toSysDict SimpleTrie.trie 9
  | .error _ => ⟨[], 0, fun _ _ _ => .ok (-1)⟩

def userHeader : Header := ⟨(USER_DICT_VERSION_3 : Nat), 100, [117]⟩

/-- `aab,0,1,-32768,aab,u,u,u,u,u,u,,,*,C,0/1,*,*` -/
def userCols0 : Cols := ⟨[97, 97, 98], [48], [49], [45, 51, 50, 55, 54, 56], [97, 97, 98], [117], [117], [117], [117], [117], [117], [], [],
  [42], [67], [48, 47, 49], [42], [42], []⟩

/-- `b,1,1,4,b,p,p,p,p,p,q,,,*,A,*,*,*,*` -/
def userCols1 : Cols := ⟨[98], [49], [49], [52], [98], [112], [112], [112], [112], [112], [113], [], [], [42], [65], [42], [42], [42], [[42]]⟩

/-- `aab,0,1,-32768,aab,v,u,u,u,u,u,,,*,C,*,*,*` -/
def userCols2 : Cols := { userCols0 with pos0 := [118], aSplit := [42] }

def userRows1 : List (List PStr) := [userCols0.list, userCols1.list]
def userRows2 : List (List PStr) := [userCols2.list]

def userBuilt1 : Out := (DictBuilder.init (some sysDict)).build SimpleTrie.trie userHeader userRows1 none
def userBuilt2 : Out := (DictBuilder.init (some sysDict)).build SimpleTrie.trie userHeader userRows2 none

def userFile1 : Bytes := (runOps userBuilt1.1).data
def userFile2 : Bytes := (runOps userBuilt2.1).data

def config : DictConfig := ⟨SimpleTrie.trie, 9, 100, fun _ => [.DEFAULT], id, id, [], [.simple ⟨0, 0, 30000, 0⟩], []⟩

theorem user1_ok : userBuilt1.2 = .ok () := by decide +kernel
theorem user2_ok : userBuilt2.2 = .ok () := by decide +kernel

theorem sysDict_pos : sysDict.posList = [[[112], [112], [112], [112], [112], [112]], [[112], [112], [112], [112], [112], [113]]] := by
  decide +kernel

theorem load_ok : (Dict.load config systemFile [userFile2, userFile1]).isOk = true := by decide +kernel

theorem user_header_ok : HeaderOk userHeader := ⟨.inr rfl, by decide, by decide⟩

theorem urow0 : RowIs userRows1 0 userCols0 := ⟨_, rfl, (by decide +kernel : decodeCols userCols0.list = .ok userCols0.list)⟩
theorem urow1 : RowIs userRows1 1 userCols1 := ⟨_, rfl, (by decide +kernel : decodeCols userCols1.list = .ok userCols1.list)⟩
theorem urow2 : RowIs userRows2 0 userCols2 := ⟨_, rfl, (by decide +kernel : decodeCols userCols2.list = .ok userCols2.list)⟩

theorem mem_userRows1 {row : List PStr} (hm : row ∈ userRows1) {c : Cols} (hr : RowReads row c) : c = userCols0 ∨ c = userCols1 := by
  simp only [userRows1, List.mem_cons, List.not_mem_nil, or_false] at hm
  obtain ⟨_, e0, h0⟩ := urow0
  obtain ⟨_, e1, h1⟩ := urow1
  cases e0
  cases e1
  rcases hm with rfl | rfl
  · exact .inl (reads_unique hr h0)
  · exact .inr (reads_unique hr h1)

theorem mem_userRows2 {row : List PStr} (hm : row ∈ userRows2) {c : Cols} (hr : RowReads row c) : c = userCols2 := by
  simp only [userRows2, List.mem_cons, List.not_mem_nil, or_false] at hm
  obtain ⟨_, e0, h0⟩ := urow2
  cases e0
  subst hm
  exact reads_unique hr h0

theorem user1_source : SourceOk userHeader userRows1 none where
  header := user_header_ok
  pos row hm c hr s hs := by
    rcases mem_userRows1 hm hr with rfl | rfl <;>
      simp only [Cols.pos, userCols0, userCols1, List.mem_cons, List.not_mem_nil, or_false] at hs
    all_goals rcases hs with rfl | rfl | rfl | rfl | rfl | rfl <;> decide
  matrix := trivial

theorem user2_source : SourceOk userHeader userRows2 none where
  header := user_header_ok
  pos row hm c hr s hs := by
    rw [mem_userRows2 hm hr] at hs
    simp only [Cols.pos, userCols2, userCols0, List.mem_cons, List.not_mem_nil, or_false] at hs
    rcases hs with rfl | rfl | rfl | rfl | rfl | rfl <;> decide
  matrix := trivial

theorem user1_loads : (fromUserDictionary userFile1).isOk = true := by decide +kernel
theorem user2_loads : (fromUserDictionary userFile2).isOk = true := by decide +kernel
theorem system_loads : (fromSystemDictionary systemFile).isOk = true := by decide +kernel

theorem loaded {b : Bytes} {r : Res BinDict} {p : BinDict → Bool} (hr : r = (do let d ← readDictionary b; if !p d then .error .io else pure d))
    (h : r.isOk = true) : ∃ d, r = .ok d ∧ readDictionary b = .ok d := by
  cases hd : readDictionary b with
  | error e => rw [hr, hd] at h; cases h
  | ok d =>
    rw [hd] at hr
    simp only [bind, Except.bind, pure, Except.pure] at hr
    split at hr
    · rw [hr] at h; cases h
    · exact ⟨d, hr, rfl⟩

theorem user1_compiled : ∃ d, fromUserDictionary userFile1 = .ok d ∧ Compiled SimpleTrie.trie (some sysDict) userHeader userRows1 none d := by
  obtain ⟨d, h1, h2⟩ := loaded (p := fun d => isUserDictionary d.header.version.toNat) rfl user1_loads
  exact ⟨d, h1, userBuilt1.1, Prod.ext rfl user1_ok, h2⟩

theorem user2_compiled : ∃ d, fromUserDictionary userFile2 = .ok d ∧ Compiled SimpleTrie.trie (some sysDict) userHeader userRows2 none d := by
  obtain ⟨d, h1, h2⟩ := loaded (p := fun d => isUserDictionary d.header.version.toNat) rfl user2_loads
  exact ⟨d, h1, userBuilt2.1, Prod.ext rfl user2_ok, h2⟩

theorem system_compiled : ∃ d, fromSystemDictionary systemFile = .ok d ∧ Compiled SimpleTrie.trie none header rows matrix d := by
  obtain ⟨d, h1, h2⟩ := loaded (p := fun d => isSystemDictionary d.header.version.toNat) rfl system_loads
  exact ⟨d, h1, built.1, Prod.ext rfl built_ok, h2⟩

theorem sysDict_eq {d : BinDict} (h : readDictionary systemFile = .ok d) : sysDict = d.toSysDict SimpleTrie.trie 9 := by
  unfold sysDict
  rw [h]

theorem load_infos : ((Dict.load config systemFile [userFile2, userFile1]).bind fun d => d.set.wordInfo 9 536870912).isOk = true := by
  decide +kernel

/-- The surface of the automatic cost is tokenized as two words with costs 5 and -3. -/
theorem auto_path : ((Dict.load config systemFile []).bind fun d =>
    ((d.tokenizer config [] .C).tokenize Lattice.init userCols2.surface none).2.map (fun ms => ms.path.map (·.cost))) = .ok [5, -3] := by
  decide +kernel

/-- A user dictionary without automatic costs. -/
def userRows3 : List (List PStr) := [userCols1.list]
def userBuilt3 : Out := (DictBuilder.init (some sysDict)).build SimpleTrie.trie userHeader userRows3 none
def userFile3 : Bytes := (runOps userBuilt3.1).data

theorem user3_costs : ((fromUserDictionary userFile3).map fun d => (d.lexicon.size, d.lexicon.cost 0)) = .ok (1, .ok 4) := by
  decide +kernel

end Sudachi.Sample
