/-
Settings: what the paths mean.
-/
import Verif.Model.Config
namespace Sudachi

/-- A POSIX path that begins at the root. -/
def Absolute (p : PStr) : Prop := ∃ q, p = 47 :: q

/-- `res` is the path `p` seen from the directory `dir`: an absolute path is kept, another one is put behind the directory
with one slash between them. -/
inductive Resolves : (dir p res : PStr) → Prop
  | absolute (dir p) : Absolute p → Resolves dir p p
  | here (p) : ¬ Absolute p → Resolves [] p p
  | slash (d p) : ¬ Absolute p → Resolves (d ++ [47]) p (d ++ 47 :: p)
  | below (dir p) : ¬ Absolute p → dir ≠ [] → (∀ d, dir ≠ d ++ [47]) → Resolves dir p (dir ++ 47 :: p)

/-- `dir` is the directory part of the path `p`: nothing for a bare name, the slashes for a name at the root, else what
precedes the slashes before the name. -/
inductive DirOf : (p dir : PStr) → Prop
  | bare (f) : 47 ∉ f → DirOf f []
  | root (n f) : 47 ∉ f → DirOf (List.replicate (n + 1) 47 ++ f) (List.replicate (n + 1) 47)
  | under (d c n f) : c ≠ 47 → 47 ∉ f → DirOf (d ++ [c] ++ List.replicate (n + 1) 47 ++ f) (d ++ [c])

/-- The three dictionaries there are packages for. -/
def KnownType (t : PStr) : Prop :=
  t = "small".toList.map Char.toNat ∨ t = "core".toList.map Char.toNat ∨ t = "full".toList.map Char.toNat

/-- The package of a dictionary type. -/
def packageOf (t : PStr) : PStr := "sudachidict_".toList.map Char.toNat ++ t

/-- The keys of the setting file. -/
def systemKey : PStr := "systemDict".toList.map Char.toNat
def userKey : PStr := "userDict".toList.map Char.toNat
def charKey : PStr := "characterDefinitionFile".toList.map Char.toNat

/-- The value of a key in the setting file. -/
def Says (d : JDict) (key : PStr) (v : Json) : Prop := ∃ a b, d = a ++ (key, v) :: b ∧ ∀ kv ∈ a, kv.1 ≠ key

/-- The key is not in the setting file. -/
def Silent (d : JDict) (key : PStr) : Prop := ∀ kv ∈ d, kv.1 ≠ key

/-- A fraction that rounds to zero: `m / 10 ^ k` is zero or at most half of the smallest `float`, 2^-1074. -/
def JReal.Zero (x : JReal) : Prop :=
  ∃ neg m, (∃ k : Nat, x = .decimal neg m k ∧ m = 0) ∨ ∃ k : Nat, 0 < k ∧ x = .decimal neg m (-k) ∧ m * 2 ^ 1075 ≤ 10 ^ k

/-- A value that names nothing: `null`, `false`, zero, and empty text, lists and objects. -/
def Json.Empty (v : Json) : Prop :=
  v = .null ∨ v = .bool false ∨ v = .num 0 ∨ (∃ x : JReal, v = .real x ∧ x.Zero) ∨ v = .str [] ∨ v = .list [] ∨ v = .obj []

/-- `true` or a number other than zero. -/
def Json.Number (v : Json) : Prop := v = .bool true ∨ (∃ n, v = .num n ∧ n ≠ 0) ∨ ∃ x : JReal, v = .real x ∧ ¬ x.Zero

/-- The name is in the value: as a part of a text, an element of a list, or a key of an object. -/
def Json.Names (v : Json) (name : PStr) : Prop :=
  match v with
  | .str s => ∃ a b, s = a ++ name ++ b
  | .list l => .str name ∈ l
  | .obj kvs => ∃ w, (name, w) ∈ kvs
  | _ => False

end Sudachi
