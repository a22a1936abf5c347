/-
A trie library that meets the contract `Darts.Ok`, by keeping the list of keys in the array.  It shows that the contract
can be met and is used in the examples.
-/
import Verif.Spec.DictFile
namespace Sudachi.SimpleTrie

/-- Numbers as units of four. -/
def enc (ns : List Nat) : Bytes := ns.flatMap (fun n => [n, 0, 0, 0])

/-- The numbers back. -/
def dec : Bytes → List Nat
  | a :: _ :: _ :: _ :: r => a :: dec r
  | _ => []

/-- The keys and values as numbers. -/
def encKvs : List (Bytes × Nat) → List Nat
  | [] => []
  | (k, v) :: r => k.length :: v :: (k ++ encKvs r)

/-- The keys and values back. -/
def decKvs : Nat → List Nat → List (Bytes × Nat)
  | n + 1, l :: v :: r => (r.take l, v) :: decKvs n (r.drop l)
  | _, _ => []

/-- The library. -/
def trie : Darts where
  build kvs := .ok (enc (encKvs kvs))
  search arr text := ((decKvs (dec arr).length (dec arr)).filter (fun kv => kv.1.isPrefixOf text)).map (fun kv => (kv.2, kv.1.length))

theorem dec_enc : ∀ ns, dec (enc ns) = ns
  | [] => rfl
  | n :: ns => by
    show n :: dec (enc ns) = n :: ns
    rw [dec_enc ns]

theorem decKvs_encKvs : ∀ (kvs : List (Bytes × Nat)) (n : Nat), kvs.length ≤ n → decKvs n (encKvs kvs) = kvs
  | [], n, _ => by cases n <;> rfl
  | (k, v) :: r, 0, h => by simp at h
  | (k, v) :: r, n + 1, h => by
    simp only [encKvs, decKvs, List.take_left, List.drop_left]
    rw [decKvs_encKvs r n (by simpa using h)]

theorem encKvs_length : ∀ kvs, kvs.length ≤ (encKvs kvs).length
  | [] => Nat.le_refl _
  | (k, v) :: r => by
    have := encKvs_length r
    simp only [encKvs, List.length_cons, List.length_append]
    omega

theorem enc_length : ∀ ns, (enc ns).length = 4 * ns.length
  | [] => rfl
  | n :: ns => by
    have := enc_length ns
    show (n :: 0 :: 0 :: 0 :: enc ns).length = _
    simp only [List.length_cons, this]
    omega

theorem ok : trie.Ok where
  units kvs arr h := by
    cases h
    rw [enc_length]
    omega
  search kvs arr text _ _ h := by
    cases h
    show ((decKvs _ (dec (enc (encKvs kvs)))).filter _).map _ = _
    rw [dec_enc, decKvs_encKvs _ _ (encKvs_length _)]

end Sudachi.SimpleTrie
