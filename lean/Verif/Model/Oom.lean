import Verif.Model.Core
/-
The engine of `Model/Core` with allocations that may fail: every function that calls `gotcha_malloc`,
directly or through a function it calls, again, with the checks the code makes (or does not make) of the
result.  Which allocations succeed is decided by an arbitrary `Nat → Bool`, indexed by the number of
allocations made so far.  Functions that do not allocate are those of `Model/Core`.
-/
namespace Gotcha.Oom
open Gotcha

/-- Computations that allocate: which allocations succeed, how many were made before. -/
def M (α : Type) : Type := (Nat → Bool) → Nat → Except Fault (α × Nat)

/-- Result without allocation. -/
def M.ret {α : Type} (x : α) : M α := fun _ k => .ok (x, k)

/-- Sequential composition. -/
def M.andThen {α β : Type} (m : M α) (f : α → M β) : M β := fun o k =>
  match m o k with
  | .error e => .error e
  | .ok (x, k') => f x o k'

instance : Monad M where
  pure := M.ret
  bind := M.andThen

/-- A fault. -/
def fail {α : Type} (f : Fault) : M α := fun _ _ => .error f

/-- A part of the code that does not allocate. -/
def lift {α : Type} (e : Except Fault α) : M α := fun _ k =>
  match e with
  | .error f => .error f
  | .ok x => .ok (x, k)

/-- `gotcha_malloc(..) != NULL` (malloc of the C library in the default build, src/libc_wrappers.h:32).
The size plays no part: any allocation may fail. -/
def alloc : M Bool := fun o k => .ok (o k, k + 1)

/-- `gotcha_malloc` whose result is used without a check. -/
def need : M Unit := do
  if ← alloc then pure () else fail .nullDeref

variable {K D : Type}

/-- src/hash.c:35-56 `create_hashtable`; `none` is the return value -1 (:45), the table is untouched. -/
def create (page initial : Nat) : M (Option (HTable K D)) := do
  let t ← lift (HTable.create page initial)
  if ← alloc then pure (some t) else pure none

/-- src/hash.c:88-115 `grow_hashtable`: the new array is cleared without a check (:100). -/
def grow (t : HTable K D) (newSize : Nat) : M (HTable K D) := do
  need
  lift (t.grow newSize)

/-- src/hash.c:161-179 `addto_hashtable`. -/
def addto (t : HTable K D) (key : K) (data : D) (hv : BitVec 32) : M (HTable K D) := do
  let newSize ← lift (HTable.growSize t.count t.size)
  if newSize ≠ t.size then do
    let t' ← grow t newSize
    lift (t'.insert key data hv)
  else lift (t.insert key data hv)

/-- src/gotcha_utils.c:74-81 `get_library` and :83-94 `add_library`: the new record is written without a check
(:85). -/
def ensureLib (s : State) (l : Lib) : M (State × Nat) := do
  match ← lift (s.libTab.lookup (linkMapHash l) (linkMapEq l.lm)) with
  | some r => pure (s, r)
  | none => do
    need
    let t ← addto s.libTab l.lm s.libs.length (linkMapHash l)
    pure ({ s with libTab := t, libs := s.libs ++ [⟨0, false, l.lm⟩] }, s.libs.length)

/-- src/gotcha.c:104-116: the loop of `prepare_symbol`. -/
def prepareLoop (env : Env) (name : Name) (h : HAddr) : List Lib → State → M (State × Bool)
  | [], s => pure (s, false)
  | l :: ls, s => do
    let (s, _) ← ensureLib s l
    let (s, r) ← lift (s.lookupExported env name l)
    match r with
    | some a => do
      let s ← lift (s.setInternal h (some a))
      pure (s, true)
    | none => prepareLoop env name h ls s

/-- src/gotcha.c:98-119 `prepare_symbol`. -/
def prepareSymbol (env : Env) (s : State) (b : Nat) : M (State × Bool) := do
  let x ← lift (s.bind b)
  prepareLoop env x.user.name x.user.handle s.linkMap s

/-- src/gotcha.c:121-130 `insert_at_head`; the result of `addto_hashtable` is not looked at. -/
def insertAtHead (s : State) (b head : Nat) : M State := do
  let xb ← lift (s.bind b)
  let xh ← lift (s.bind head)
  let s : State := { s with binds := s.binds.modify b (fun x => { x with next := some head }) }
  let s ← lift (s.setInternal xb.user.handle (some xh.user.wrapper))
  let (t, _) ← lift (s.funTab.removefrom (strhash xb.user.name) (fun k => k = xb.user.name))
  let t ← addto t xb.user.name b (strhash xb.user.name)
  pure { s with funTab := t }

/-- src/gotcha.c:145-207 `rewrite_wrapper_orders`. -/
def rewriteOrders (onMain : State → M State) (s : State) (b : Nat) : M (State × RWO) := do
  let xb ← lift (s.bind b)
  let p ← lift (s.bindPriority b)
  let s ← if xb.user.name = nm "main" then onMain s else pure s
  match ← lift (nameLookup s.funTab xb.user.name) with
  | none => do
    let t ← addto s.funTab xb.user.name b (strhash xb.user.name)
    pure ({ s with funTab := t }, ⟨true, true⟩)
  | some head => do
    let hp ← lift (s.bindPriority head)
    if hp < p then do
      let s ← insertAtHead s b head
      pure (s, ⟨false, true⟩)
    else
      match ← lift (findPos s p xb.user.wrapper (s.binds.length + 1) head) with
      | none => pure (s, ⟨false, false⟩)
      | some pos => do
        let s ← lift (s.insertAfter b pos)
        pure (s, ⟨false, false⟩)

/-- src/gotcha.c:362-391 `update_library_got`: allocates the library record only. -/
def updateLib (env : Env) (t : HTable Name Nat) (s : State) (l : Lib) (hasNext : Bool) : M State := do
  let (s, r) ← ensureLib s l
  if !(← lift (s.filter.accepts l hasNext)) then pure s
  else
    match s.libs[r]? with
    | none => fail .outOfBounds
    | some rec =>
      if rec.gen = s.gen then pure s
      else do
        let s ← if rec.writable then pure s
          else do
            let s ← lift (s.markGotWritable env l)
            pure { s with libs := s.libs.modify r (fun x => { x with writable := true }) }
        match ← lift (Elf.relocs l.img) with
        | none => pure s
        | some rl => do
          let s ← lift (writeRelocs t l.addr rl s)
          pure { s with libs := s.libs.modify r (fun x => { x with gen := s.gen }) }

/-- src/gotcha.c:393-400 `update_all_library_gots`, over the rest of the link map. -/
def updateLibs (env : Env) (t : HTable Name Nat) : List Lib → State → M State
  | [], s => pure s
  | l :: ls, s => do
    let s ← updateLib env t s l (!ls.isEmpty)
    updateLibs env t ls s

/-- src/gotcha.c:393-400 `update_all_library_gots`. -/
def updateAll (env : Env) (t : HTable Name Nat) (s : State) : M State :=
  updateLibs env t s.linkMap s

/-- src/tool.c:64-83 `create_tool`: `none` is the NULL returned when the tool cannot be allocated; the
result of `create_hashtable` for `child_tools` is not looked at (:78), and that table is never used. -/
def createTool (ts : Tools) (name : Name) : M (Option (Tools × Nat)) := do
  if ← alloc then do
    let r ← lift (ts.create name)
    let _ ← alloc
    pure (some r)
  else pure none

/-- `get_tool` followed by `create_tool` when absent (src/gotcha.c:427-428 and :496-499). -/
def getOrCreate (ts : Tools) (name : Name) : M (Option (Tools × Nat)) := do
  match ← lift (ts.getTool name) with
  | some i => pure (some (ts, i))
  | none => createTool ts name

/-- src/tool.c:95-143 `add_binding_to_tool`.  The record of the table (:100) and the array of internal
bindings (:102-104) are written without a check, the latter unless the table is empty.  The Boolean is
`false` when the hash table of the bindings cannot be allocated: the function returns NULL and leaves the
handles pointing at the internal bindings.  Adding the n names to that table, which has room for 2n,
allocates nothing. -/
def addBindingToTool (tool : Nat) (table : List UBinding) (s : State) : M (State × Bool) := do
  need
  if ← alloc then pure () else if table.length = 0 then pure () else fail .nullDeref
  let s := addBindings tool table s
  let ok ← alloc
  pure (s, ok)

/-- The `new_bindings` table of `gotcha_wrap` (src/gotcha.c:467-475): a local variable, whose creation is
not checked; when it fails the variable stays uninitialised and is used. -/
def addNew (env : Env) (n : Nat) (nb : Option (HTable Name Nat)) (name : Name) (b : Nat) :
    M (Option (HTable Name Nat)) := do
  let t ← match nb with
    | some t => pure t
    | none => do
      match ← create env.page (n * 2) with
      | some t => pure t
      | none => fail .uninit
  let t ← addto t name b (strhash name)
  pure (some t)

/-- src/gotcha.c:448-477: the loop over the bindings of a table. -/
def processBindings (env : Env) (onMain : State → M State) (n : Nat) :
    List Nat → State → Option (HTable Name Nat) → Nat → M (State × Option (HTable Name Nat) × Nat)
  | [], s, nb, nf => pure (s, nb, nf)
  | b :: bs, s, nb, nf => do
    let xb ← lift (s.bind b)
    let (s, r) ← rewriteOrders onMain s b
    let (s, nf) ←
      if r.lookup then do
        let (s, ok) ← prepareSymbol env s b
        if ok then pure (s, nf)
        else do
          let t ← addto s.notFound xb.user.name b (strhash xb.user.name)
          pure ({ s with notFound := t }, nf + 1)
      else pure (s, nf)
    let nb ← if r.binding then addNew env n nb xb.user.name b else pure nb
    processBindings env onMain n bs s nb nf

/-- src/gotcha.c:423-491: `gotcha_wrap` after `gotcha_init`.  The return code `none` is GOTCHA_INTERNAL. -/
def wrapCore (env : Env) (onMain : State → M State) (table : List UBinding) (tool : Option Name)
    (s : State) : M (State × Option RetCode) := do
  let s := table.foldl (fun s u => s.setHandle u.handle none) s
  match ← getOrCreate s.tools (tool.getD (nm "[UNSPECIFIED]")) with
  | none => pure (s, none)
  | some (ts, tid) => do
    let s : State := { s with tools := ts, gen := s.gen + 1 }
    let base := s.binds.length
    let (s, ok) ← addBindingToTool tid table s
    if !ok then pure (s, none)
    else do
      let (s, nb, nf) ←
        processBindings env onMain table.length (List.range' base table.length) s none 0
      let s ← match nb with
        | none => pure s
        | some t => updateAll env t s
      pure (s, some (if nf > 0 then .functionNotFound else .success))

/-- `gotcha_wrap` as called from inside the "main" block. -/
def wrapInner (env : Env) (table : List UBinding) (tool : Option Name) (s : State) :
    M (State × Option RetCode) :=
  wrapCore env (fun s => pure s) table tool s

/-- src/gotcha.c:149-156: what `rewrite_wrapper_orders` does for the name "main".  The return codes are
not looked at. -/
def onMainReal (env : Env) (s : State) : M State :=
  if s.mainWrapped then pure s
  else do
    let s : State := { s with mainWrapped := true }
    let (s, _) ← wrapInner env (libcMainTable env) (some (nm "gotcha")) s
    let (s, _) ← wrapInner env (mainTable env) (some (nm "gotcha")) s
    pure s

/-- `gotcha_wrap` once GOTCHA is initialised. -/
def wrapBody (env : Env) (table : List UBinding) (tool : Option Name) (s : State) :
    M (State × Option RetCode) :=
  wrapCore env (onMainReal env) table tool s

/-- src/gotcha_utils.c:107-116 `gotcha_init` with :65-72 `setup_hash_tables` and src/gotcha_dl.c:190
`handle_libdl`.  None of the results is looked at: a table that cannot be created keeps size 0, and a
failed `gotcha_wrap` of dlopen and dlsym goes unnoticed. -/
def gotchaInit (env : Env) (s : State) : M State :=
  if s.inited then pure s
  else do
    let s : State := { s with inited := true }
    let lt ← create env.page 128
    let ft ← create env.page 4096
    let nt ← create env.page 128
    let s : State := { s with libTab := lt.getD s.libTab, funTab := ft.getD s.funTab,
                              notFound := nt.getD s.notFound }
    let (s, _) ← wrapBody env (dlTable env) (some (nm "gotcha")) s
    pure s

/-- src/gotcha.c:402-491 `gotcha_wrap`. -/
def gotchaWrap (env : Env) (table : List UBinding) (tool : Option Name) (s : State) :
    M (State × Option RetCode) := do
  let s ← gotchaInit env s
  wrapBody env table tool s

/-- src/gotcha.c:509-527 `gotcha_set_priority` with :493-507 `gotcha_configure_int`: the tool created
there is used without a check (:502).  Once the tool exists the second `get_tool` finds it. -/
def gotchaSetPriority (env : Env) (tool : Name) (v : Int) (s : State) : M State := do
  let s ← gotchaInit env s
  match ← getOrCreate s.tools tool with
  | none => fail .nullDeref
  | some (ts1, i) => do
    let ts2 : Tools := { ts1 with store := ts1.store.modify i (fun t => { t with priority := v }) }
    match ← getOrCreate ts2 tool with
    | none => fail .nullDeref
    | some (ts3, j) => do
      let ts4 ← lift (ts3.remove j)
      let ts5 ← lift (ts4.reorder j)
      pure { s with tools := ts5 }

/-- src/gotcha.c:529-533 `gotcha_get_priority`. -/
def gotchaGetPriority (env : Env) (tool : Name) (s : State) : M (State × Option Int) := do
  let s ← gotchaInit env s
  let v ← lift (s.tools.getPriority tool)
  pure (s, v)

/-- src/gotcha_dl.c:107-135 `per_binding`. -/
def perBinding (env : Env) (key : Option Name) (data : Option Nat) (s : State) : M (State × Bool) := do
  match key, data with
  | some k, some b => do
    let b ← lift (innermost s (s.binds.length + 1) b)
    let (s, ok) ← prepareSymbol env s b
    if ok then do
      let (t, _) ← lift (s.notFound.removefrom (strhash k) (fun x => x = k))
      pure ({ s with notFound := t }, false)
    else pure (s, false)
  | _, _ => fail .nullDeref

/-- src/hash.c:202-212 `foreach_hash_entry` with `per_binding` on the table of functions not found. -/
def foreachNotFound (env : Env) : Nat → Option Nat → State → M State
  | _, none, s => pure s
  | 0, some _, _ => fail .diverge
  | fuel + 1, some i, s =>
    match s.notFound.slots[i]? with
    | none => fail .outOfBounds
    | some e => do
      let (s', stop) ← perBinding env e.key e.data s
      if stop then pure s'
      else
        match s'.notFound.slots[i]? with
        | none => fail .outOfBounds
        | some e' => foreachNotFound env fuel e'.next s'

/-- src/gotcha_dl.c:137-152 `dlopen_wrapper`; `ld` is what the real dlopen loads. -/
def dlopenWrapper (env : Env) (ld : Load) (s : State) : M State := do
  let _ ← lift (s.getWrappee env.hDlopen)
  let s := s.load ld
  let s ← foreachNotFound env s.notFound.slots.length s.notFound.head s
  updateAll env s.funTab s

end Gotcha.Oom
