import Verif.Model.Hash
import Verif.Spec.Printf
/-
The unit test of the hash table, of any size.
-/
namespace Gotcha.Unit
open Gotcha

/-- test/unit/gotcha_unit_tests.c:518-521: the key of an entry; snprintf writes the decimal numeral, at most 7
characters of it. -/
def growKey (loop : Nat) : Name := (Spec.Printf.numeral false 10 loop).take 7

/-- test/unit/gotcha_unit_tests.c:523-526.  Simplified: `addto_hashtable` returns 0, as in `HTable.addto`. -/
def addAll : List Nat → HTable Name Nat → Except Fault (HTable Name Nat)
  | [], t => .ok t
  | loop :: rest, t =>
    match t.addto (growKey loop) loop (strhash (growKey loop)) with
    | .error f => .error f
    | .ok t' => addAll rest t'

/-- test/unit/gotcha_unit_tests.c:529-538: `first_broken`, `none` for -1.  When nothing is found the variable
`result` has never been written.  Simplified: `loop` is unbounded. -/
def findAll : List Nat → HTable Name Nat → Except Fault (Option Nat)
  | [], _ => .ok none
  | loop :: rest, t =>
    match t.lookup (strhash (growKey loop)) (· == growKey loop) with
    | .error f => .error f
    | .ok none => .error .uninit
    | .ok (some found) => if found ≠ loop then .ok (some loop) else findAll rest t

/-- test/unit/gotcha_unit_tests.c:541-543; the Boolean is `remove_return_code == 0`. -/
def removeAll : List Nat → HTable Name Nat → Bool → Except Fault (HTable Name Nat × Bool)
  | [], t, code => .ok (t, code)
  | loop :: rest, t, code =>
    match t.removefrom (strhash (growKey loop)) (· == growKey loop) with
    | .error f => .error f
    | .ok (t', ok) => removeAll rest t' (code && ok)

/-- The messages of the assertions. -/
inductive Failed where
  | notFound
  | removing
  | removedTwice
  deriving DecidableEq

/-- test/unit/gotcha_unit_tests.c:509-550 (`hash_grow_test`) with `n` for NUM_INSERTS: the assertion that fails, if
one does.  Simplified: allocation succeeds. -/
def hashGrowTest (page n : Nat) : Except Fault (Option Failed) :=
  match HTable.create page 1 with
  | .error f => .error f
  | .ok t0 =>
    match addAll (List.range n) t0 with
    | .error f => .error f
    | .ok t1 =>
      match findAll (List.range n) t1 with
      | .error f => .error f
      | .ok (some _) => .ok (some .notFound)
      | .ok none =>
        match removeAll (List.range n) t1 true with
        | .error f => .error f
        | .ok (_, false) => .ok (some .removing)
        | .ok (t2, true) =>
          match t2.removefrom (strhash (growKey 0)) (· == growKey 0) with
          | .error f => .error f
          | .ok (_, true) => .ok (some .removedTwice)
          | .ok (_, false) => .ok none

end Gotcha.Unit
