import Verif.Model.Heap
import Verif.Spec.HashLib
/-
src/hash.c as a library: any number of tables, created, used and destroyed, with the heap.
-/
namespace Gotcha.Heap
open Gotcha Spec

variable {K D : Type}

/-- src/hash.h:30-37 `hash_table_t`: the table with its size, count and list, the member `table`, and whether
`hashfunc` and `keycmp` are set. -/
structure Obj (K D : Type) where
  tab : HTable K D
  arr : Option Nat
  funcs : Bool

/-- src/hash.c:117-126 `destroy_hashtable`: the array is freed, every member is 0 or NULL. -/
def destroy (x : Obj K D) : M (Obj K D) := do
  free x.arr
  pure { tab := { slots := [], count := 0, head := none }, arr := none, funcs := false }

/-- One call on a table.  src/hash.c:151-159 `lookup_hashtable`, :161-179 `addto_hashtable` and :181-200
`removefrom_hashtable` call `hashfunc` (:131, :174): in a table without one that is a call through NULL.  (`addto`
looks at the counts before; in a destroyed table they are 0.) -/
def useTable (k : Kind) (hash : K → BitVec 32) (cmp : K → K → Bool) (x : Obj K D) (op : MapOp K D) :
    M (Obj K D × MapObs D) :=
  if !x.funcs then fail .nullDeref
  else match op with
    | .add key d => do
      let (t, a) ← addto k x.tab x.arr key d (hash key)
      pure ({ x with tab := t, arr := a }, .added)
    | .remove key => do
      let (t, b) ← lift (x.tab.removefrom (hash key) (fun s => cmp s key))
      pure ({ x with tab := t }, .removed b)
    | .lookup key => do
      let r ← lift (x.tab.lookup (hash key) (fun s => cmp s key))
      pure (x, .found r)

/-- The variables of a client, `none` if not initialised. -/
abbrev Vars (K D : Type) := Nat → Option (Obj K D)

/-- One call of a client.  Reading a variable that has not been initialised is undefined.  src/hash.c:35-56
`create_hashtable` leaves the variable as it is when it returns -1 (:45). -/
def perform (k : Kind) (page : Nat) (hash : K → BitVec 32) (cmp : K → K → Bool) (s : Vars K D) :
    HlOp K D → M (Vars K D × HlObs D)
  | .create i n => do
    match ← create k page n with
    | some (t, a) => pure (putAt s i (some ⟨t, a, true⟩), .created true)
    | none => pure (s, .created false)
  | .use i op =>
    match s i with
    | none => fail .uninit
    | some x => do
      let (x, ob) ← useTable k hash cmp x op
      pure (putAt s i (some x), .did ob)
  | .destroy i =>
    match s i with
    | none => fail .uninit
    | some x => do
      let x ← destroy x
      pure (putAt s i (some x), .destroyed)

/-- The client remembers what it has: `none` before a table has been created, `some true` while it has it, `some false`
once it is destroyed.  It goes by the results of `create_hashtable`. -/
def remember (m : Nat → Option Bool) : HlOp K D → HlObs D → Nat → Option Bool
  | .create i _, .created true => putAt m i (some true)
  | .destroy i, .destroyed => putAt m i (some false)
  | _, _ => m

/-- What it would do with a table it does not have, it leaves; it does not create a table it has. -/
def permitted (m : Nat → Option Bool) : HlOp K D → Bool
  | .create i _ => decide (m i ≠ some true)
  | .use i _ => decide (m i = some true)
  | .destroy i => decide (m i ≠ none)

/-- A client of src/hash.c. -/
def client (k : Kind) (page : Nat) (hash : K → BitVec 32) (cmp : K → K → Bool) :
    List (HlOp K D) → (Nat → Option Bool) → Vars K D → M (Vars K D × List (HlObs D))
  | [], _, s => pure (s, [])
  | op :: ops, m, s =>
    if permitted m op then do
      let (s, ob) ← perform k page hash cmp s op
      let (s, obs) ← client k page hash cmp ops (remember m op ob) s
      pure (s, ob :: obs)
    else do
      let (s, obs) ← client k page hash cmp ops m s
      pure (s, .skipped :: obs)

end Gotcha.Heap
