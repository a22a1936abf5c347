/-
sudachipy/plugin/oov/*.py
-/
import Verif.Model.InputText
import Verif.Model.InputPlugins
import Verif.Model.Lattice
namespace Sudachi

/-- mecab_oov_plugin.py:26-31 `CategoryInfo` (without `type_`, which always equals the key). -/
structure CategoryInfo where
  isInvoke : Bool
  isGroup : Bool
  length : Int
  deriving DecidableEq, Repr

/-- mecab_oov_plugin.py:33-38 `OOV`. -/
structure OovEntry where
  leftId : Int
  rightId : Int
  cost : Int
  posId : Int
  deriving DecidableEq, Repr

/-- The OOV provider plugins (user-written plugins are outside the model). `oovList` is the list of unk.def lines
in order; `oov_list[type_]` are those of that type. -/
inductive OovPlugin
  | mecab (categories : List (Cat × CategoryInfo)) (oovList : List (Cat × OovEntry))
  | simple (entry : OovEntry)
  deriving DecidableEq, Repr

/-- The node both providers create: mecab_oov_plugin.py:90-97, simple_oov_plugin.py:34-41, with
`set_begin`/`set_end` of oov_provider_plugin.py:35-37. -/
def oovNode (offset length : Nat) (s : PStr) (o : OovEntry) : NodeData :=
  { begin_ := offset, end_ := offset + length, leftId := o.leftId, rightId := o.rightId, cost := o.cost, wordId := 0,
    oov := true, defined := true,
    extra := some ⟨s, length, o.posId, s, -1, s, [], [], [], [], []⟩ }

/-- mecab_oov_plugin.py:81-87: the loop `for i in range(1, cinfo.length + 1)`. -/
def mecabPrefixes (t : InputText) (offset : Nat) (llength : Int) (oovs : List OovEntry) : List Nat → Res (List NodeData)
  | [] => .ok []
  | i :: is => do
    let sub ← t.codePointsOffsetLength offset i
    if (sub : Int) > llength then pure []
    else
      let s ← t.getSubstring offset (offset + sub)
      let rest ← mecabPrefixes t offset llength oovs is
      pure (oovs.map (oovNode offset sub s) ++ rest)

/-- mecab_oov_plugin.py:66-87: the body of the loop for one category. -/
def mecabCategory (categories : List (Cat × CategoryInfo)) (oovList : List (Cat × OovEntry)) (t : InputText)
    (offset length : Nat) (hasOther : Bool) (ty : Cat) : Res (List NodeData) :=
  match dictGet categories ty with
  | none => .ok []                                                     -- line 67-68
  | some cinfo =>
    let oovs := (oovList.filter (fun p => p.1 = ty)).map Prod.snd
    if oovs.isEmpty then .ok []                                        -- line 71-72
    else if !cinfo.isInvoke && hasOther then .ok []                    -- line 74-75
    else do
      let grouped ← if cinfo.isGroup then do                           -- line 76-80
          let s ← t.getSubstring offset (offset + length)
          pure (oovs.map (oovNode offset length s))
        else pure []
      let llength : Int := if cinfo.isGroup then (length : Int) - oovs.length else length
      let rest ← mecabPrefixes t offset llength oovs (List.range' 1 cinfo.length.toNat)
      pure (grouped ++ rest)

/-- mecab_oov_plugin.py:66: `for type_ in ...`. -/
def mecabCategories (categories : List (Cat × CategoryInfo)) (oovList : List (Cat × OovEntry)) (t : InputText)
    (offset length : Nat) (hasOther : Bool) : CatSet → Res (List NodeData)
  | [] => .ok []
  | ty :: tys => do
    let a ← mecabCategory categories oovList t offset length hasOther ty
    let b ← mecabCategories categories oovList t offset length hasOther tys
    pure (a ++ b)

/-- `provide_oov` of the two providers: mecab_oov_plugin.py:61-88 and simple_oov_plugin.py:32-44, for entries whose ids and cost fit the
nodes. -/
def OovPlugin.provideOov (t : InputText) (offset : Nat) (hasOther : Bool) : OovPlugin → Res (List NodeData)
  | .mecab categories oovList => do
    let length ← t.charCategoryContinuousLength offset
    if length < 1 then pure []
    else
      let types ← t.charCategoryTypesAt offset
      mecabCategories categories oovList t offset length hasOther types
  | .simple o =>
    if hasOther then .ok []
    else do
      let length ← t.wordCandidateLength offset
      let s ← t.getSubstring offset (offset + length)
      pure [oovNode offset length s o]

/-- A C `int` (latticenode.pxd:14-16). -/
def isCInt (v : Int) : Bool := decide (-2147483648 ≤ v) && decide (v ≤ 2147483647)

/-- The ids and the cost can be stored in a node. -/
def NodeData.stores (d : NodeData) : Bool := isCInt d.leftId && isCInt d.rightId && isCInt d.cost

/-- `get_oov` (oov_provider_plugin.py:33-38).  `set_parameter` (latticenode.pyx:46-49) raises `OverflowError` for an id or a cost that is
no C `int`, when the node is made (mecab_oov_plugin.py:92, simple_oov_plugin.py:35); here the nodes are looked at when all of them have
been made, which is the same since nothing in between raises at a character of the text. -/
def OovPlugin.getOov (t : InputText) (offset : Nat) (hasOther : Bool) (p : OovPlugin) : Res (List NodeData) := do
  let ns ← p.provideOov t offset hasOther
  if ns.all NodeData.stores then pure ns else .error .overflow

end Sudachi
