import Verif.Model.Core
import Verif.Model.LibC
/-
`gotcha_wrap` for any value of its `int` argument `num_actions`, with the 64-bit arithmetic of the sizes it
asks the allocator for.
-/
namespace Gotcha.Count

/-- src/hash.c:40-44, the number of entries `create_hashtable` decides on, in `size_t` arithmetic.
`entries_per_page` is an `int` which is converted to `size_t`; `page` is `gotcha_getpagesize()`, a positive
`int`. -/
def tableSize (page initial : BitVec 64) : Except Fault (BitVec 64) :=
  let perPage := page / 48
  if perPage = 0 then .error .divZero
  else if initial % perPage ≠ 0 then .ok (initial + (perPage - initial % perPage))
  else .ok initial

/-- src/hash.c:44, the number of bytes: `initial_size * sizeof(hash_entry_t)`. -/
def tableBytes (size : BitVec 64) : BitVec 64 := size * 48

/-- src/tool.c:95-144 `add_binding_to_tool` for the first `n` entries of the user's table, which are `table`.
`malloc` tells for which sizes the allocator returns memory.  `sizeof(binding_t)` is 88 and the record is
written without a check (:100-101); `sizeof(struct internal_binding_t)` is 32 and the array is written by the
loop (:105) only.  `user_binding_size * 2` (:113) is an `int` product.  The Boolean is `false` when the
function returns NULL. -/
def addBindingToTool (env : Env) (malloc : BitVec 64 → Bool) (n : Int) (tool : Nat) (table : List UBinding)
    (s : State) : Except Fault (State × Bool) :=
  if malloc 88 = false then .error .nullDeref
  else if malloc (32 * BitVec.ofInt 64 n) = false ∧ 0 < n then .error .nullDeref
  else
    match LibC.int32 (n * 2) with
    | .error f => .error f
    | .ok twice =>
      match tableSize (BitVec.ofNat 64 env.page) (BitVec.ofInt 64 twice) with
      | .error f => .error f
      | .ok size => .ok (addBindings tool table s, malloc (tableBytes size))

/-- src/gotcha.c:402-491 `gotcha_wrap(user_bindings, n, tool)`, `mem` being the objects of type
`gotcha_binding_t` at `user_bindings`; reading more of them is an error.  `none` is `GOTCHA_INTERNAL`.
The loops (:421, :451) run for `0 ≤ i < n`.
Simplifications: allocations outside `add_binding_to_tool` succeed; `create_hashtable` at :470 asks for the
same size as the one in `add_binding_to_tool`. -/
def gotchaWrap (env : Env) (malloc : BitVec 64 → Bool) (mem : List UBinding) (n : Int) (tool : Option Name)
    (s : State) : Except Fault (State × Option RetCode) := do
  let s ← gotchaInit env s
  if (mem.length : Int) < n then .error .outOfBounds
  else do
    let table := mem.take n.toNat
    let s := table.foldl (fun s u => s.setHandle u.handle none) s
    let (ts, tid) ← s.tools.getOrCreate (tool.getD (nm "[UNSPECIFIED]"))
    let s := { s with tools := ts, gen := s.gen + 1 }
    let base := s.binds.length
    let (s, ok) ← addBindingToTool env malloc n tid table s
    if ok then do
      let (s, nb, nf) ←
        processBindings env (onMainReal env) table.length (List.range' base table.length) s none 0
      let s ← match nb with
        | none => Except.ok s
        | some t => s.updateAll env t
      .ok (s, some (if nf > 0 then .functionNotFound else .success))
    else .ok (s, none)

end Gotcha.Count
