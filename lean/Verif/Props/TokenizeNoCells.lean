import Verif.Props.TokenizeCommand
import Verif.Lemmas.SampleTerminal

/-!
# C76: an example of a dictionary without connection costs
-/

namespace Sudachi
namespace Sample

/-- The settings of the sample without user dictionaries. -/
def bareSettings : JDict := settings.take 1 ++ settings.drop 2

/-- The disk with a system dictionary that was built without connection costs. -/
def bareDisk : Disk where
  defaultSetting := []
  settings p := if p = settingFile then .ok bareSettings else .error .io
  package _ := none
  file p :=
    if p = systemDic then .ok (runOps cyclicBuilt.1).data else if p = charFile then .ok (pstr! "0x30..0x39 NUMERIC\n")
    else if p = textInput then .ok (pstr! "abx\n\naa") else .error .io
  resources := []

def bareTerminal : Terminal where
  toDisk := bareDisk
  present p := p = textInput
  opens _ := .ok ()
  decode b := .ok b
  headLine _ := none
  time := 100
  stdin := ([], .ok ())
  encode := encodeUtf8

/-- `tokenize -r s.json in.txt` -/
def bareArgs : TokenizeArgs := ⟨false, [textInput], [67], none, some settingFile, none, false, false⟩

theorem bare_opens : ((openDictionary runtime bareDisk Settings.init (some settingFile) none none).2.map fun x => x.2.grammar.left) = .ok 0 := by
  decide +kernel

end Sample

/-- It is a `ValueError`. -/
example : (commandTokenize Sample.runtime Sample.bareTerminal [] Sample.bareArgs).ended = .raised .value := by
  have h := Sample.bare_opens
  cases ho : openDictionary Sample.runtime Sample.bareDisk Settings.init (some Sample.settingFile) none none with
  | mk s r =>
    rw [ho] at h
    cases r with
    | error e => cases h
    | ok x =>
      obtain ⟨cfg, dict⟩ := x
      have h : dict.grammar.left = 0 := Except.ok.inj h
      refine (C76_no_cells Sample.runtime Sample.bareTerminal [] Sample.bareArgs rfl (M := Sample.bareTerminal.toShell) ?_ ?_ ho ?_).1
      · intro p hp
        rw [List.mem_singleton.1 hp]
        rfl
      · exact .inl ⟨.inl rfl, rfl⟩
      · intro hc
        have := hc.1
        omega

end Sudachi
