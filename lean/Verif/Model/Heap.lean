import Verif.Model.Core
/-
The engine of `Model/Oom` with its heap: every `gotcha_malloc` returns a numbered block, every `gotcha_free`
names one, and the three global hash tables hold the number of the array they point to.  The functions are
those of `Model/Oom`, line by line, with the allocations made explicit and with the frees.  Functions that
neither allocate nor free are those of `Model/Core`.
-/
namespace Gotcha.Heap
open Gotcha

/-- The three global hash tables (src/gotcha_utils.c:47-50). -/
inductive Which where
  | libs | funs | missing
  deriving DecidableEq, Repr

/-- What a block was allocated for: the array of a global hash table (src/hash.c:44 and :98), the array of
the `new_bindings` table of one `gotcha_wrap` (the same, from src/gotcha.c:470), a library record
(src/gotcha_utils.c:84), a tool (src/tool.c:67) and its table of child tools (src/tool.c:78), the record of a
binding table (src/tool.c:100), its internal bindings (src/tool.c:102-104) and its hash table
(src/tool.c:113-115). -/
inductive Kind where
  | table (w : Which) | newBindings | libRec | tool | childTools | bindRec | bindArr | bindHash
  deriving DecidableEq, Repr

/-- A block: its number (the number of the call of `gotcha_malloc` that returned it), what it is for, and how
many elements it has room for.  Simplification: the number of elements of `childTools` and `bindHash`, which
the engine never reads, is the one asked for, before `create_hashtable` rounds it up. -/
structure Block where
  id : Nat
  kind : Kind
  len : Nat
  deriving DecidableEq, Repr

/-- The heap: the calls of `gotcha_malloc` so far, the blocks not freed, and the member `table` of the three
global hash tables (NULL before `create_hashtable`). -/
structure Mem where
  calls : Nat := 0
  live : List Block := []
  arr : Which → Option Nat := fun _ => none

/-- Abnormal outcomes: those of the engine, and `gotcha_free` of something that is not an allocated block
(freed twice, or never allocated). -/
inductive Bad where
  | fault (f : Fault)
  | badFree
  deriving DecidableEq, Repr

/-- Computations with a heap: which allocations succeed, the heap before. -/
def M (α : Type) : Type := (Nat → Bool) → Mem → Except Bad (α × Mem)

/-- Result without allocation. -/
def M.ret {α : Type} (x : α) : M α := fun _ h => .ok (x, h)

/-- Sequential composition. -/
def M.andThen {α β : Type} (m : M α) (f : α → M β) : M β := fun o h =>
  match m o h with
  | .error e => .error e
  | .ok (x, h') => f x o h'

instance : Monad M where
  pure := M.ret
  bind := M.andThen

/-- A fault. -/
def fail {α : Type} (f : Fault) : M α := fun _ _ => .error (.fault f)

/-- A part of the code that neither allocates nor frees. -/
def lift {α : Type} (e : Except Fault α) : M α := fun _ h =>
  match e with
  | .error f => .error (.fault f)
  | .ok x => .ok (x, h)

/-- `gotcha_malloc` (malloc of the C library in the default build, src/libc_wrappers.h:32); `none` is NULL. -/
def alloc (k : Kind) (len : Nat) : M (Option Nat) := fun o h =>
  if o h.calls then
    .ok (some h.calls, { h with calls := h.calls + 1, live := ⟨h.calls, k, len⟩ :: h.live })
  else .ok (none, { h with calls := h.calls + 1 })

/-- `gotcha_malloc` whose result is used without a check. -/
def need (k : Kind) (len : Nat) : M Nat := do
  match ← alloc k len with
  | some i => pure i
  | none => fail .nullDeref

/-- `gotcha_free` (free of the C library in the default build, src/libc_wrappers.h:34): nothing for NULL,
otherwise the block must be allocated. -/
def free : Option Nat → M Unit
  | none => pure ()
  | some i => fun _ h =>
    if h.live.any (fun b => b.id == i) then
      .ok ((), { h with live := h.live.eraseP (fun b => b.id == i) })
    else .error .badFree

/-- The member `table` of a global hash table. -/
def getArr (w : Which) : M (Option Nat) := fun _ h => .ok (h.arr w, h)

/-- Assignment to the member `table` of a global hash table. -/
def setArr (w : Which) (a : Option Nat) : M Unit := fun _ h =>
  .ok ((), { h with arr := fun x => if x = w then a else h.arr x })

variable {K D : Type}

/-- src/hash.c:35-56 `create_hashtable`; `none` is the return value -1 (:45), the table is untouched.  A
table comes with its member `table`. -/
def create (k : Kind) (page initial : Nat) : M (Option (HTable K D × Option Nat)) := do
  let t ← lift (HTable.create page initial)
  match ← alloc k t.size with
  | some i => pure (some (t, some i))
  | none => pure none

/-- src/hash.c:88-115 `grow_hashtable`: the new array is cleared without a check (:100), the old one is freed
by `destroy_hashtable` (:112, :118). -/
def grow (k : Kind) (t : HTable K D) (a : Option Nat) (newSize : Nat) : M (HTable K D × Option Nat) := do
  let i ← need k newSize
  let t' ← lift (t.grow newSize)
  free a
  pure (t', some i)

/-- src/hash.c:161-179 `addto_hashtable`. -/
def addto (k : Kind) (t : HTable K D) (a : Option Nat) (key : K) (data : D) (hv : BitVec 32) :
    M (HTable K D × Option Nat) := do
  let newSize ← lift (HTable.growSize t.count t.size)
  if newSize ≠ t.size then do
    let (t', a') ← grow k t a newSize
    let t'' ← lift (t'.insert key data hv)
    pure (t'', a')
  else do
    let t' ← lift (t.insert key data hv)
    pure (t', a)

/-- src/hash.c:161-179 `addto_hashtable` on a global table. -/
def addtoGlobal (w : Which) (t : HTable K D) (key : K) (data : D) (hv : BitVec 32) : M (HTable K D) := do
  let a ← getArr w
  let (t, a) ← addto (.table w) t a key data hv
  setArr w a
  pure t

/-- src/gotcha_utils.c:74-81 `get_library` and :83-94 `add_library`: the new record is written without a check
(:85).  The record is never freed: `remove_library` (:96-105) has no caller in the engine. -/
def ensureLib (s : State) (l : Lib) : M (State × Nat) := do
  match ← lift (s.libTab.lookup (linkMapHash l) (linkMapEq l.lm)) with
  | some r => pure (s, r)
  | none => do
    let _ ← need .libRec 1
    let t ← addtoGlobal .libs s.libTab l.lm s.libs.length (linkMapHash l)
    pure ({ s with libTab := t, libs := s.libs ++ [⟨0, false, l.lm⟩] }, s.libs.length)

/-- src/gotcha.c:104-116: the loop of `prepare_symbol`. -/
def prepareLoop (env : Env) (name : Name) (h : HAddr) : List Lib → State → M (State × Bool)
  | [], s => pure (s, false)
  | l :: ls, s => do
    let (s, _) ← ensureLib s l
    let (s, r) ← lift (s.lookupExported env name l)
    match r with
    | some a => do
      let s ← lift (s.setInternal h (some a))
      pure (s, true)
    | none => prepareLoop env name h ls s

/-- src/gotcha.c:98-119 `prepare_symbol`. -/
def prepareSymbol (env : Env) (s : State) (b : Nat) : M (State × Bool) := do
  let x ← lift (s.bind b)
  prepareLoop env x.user.name x.user.handle s.linkMap s

/-- src/gotcha.c:121-130 `insert_at_head`; the result of `addto_hashtable` is not looked at. -/
def insertAtHead (s : State) (b head : Nat) : M State := do
  let xb ← lift (s.bind b)
  let xh ← lift (s.bind head)
  let s : State := { s with binds := s.binds.modify b (fun x => { x with next := some head }) }
  let s ← lift (s.setInternal xb.user.handle (some xh.user.wrapper))
  let (t, _) ← lift (s.funTab.removefrom (strhash xb.user.name) (fun k => k = xb.user.name))
  let t ← addtoGlobal .funs t xb.user.name b (strhash xb.user.name)
  pure { s with funTab := t }

/-- src/gotcha.c:145-207 `rewrite_wrapper_orders`. -/
def rewriteOrders (onMain : State → M State) (s : State) (b : Nat) : M (State × RWO) := do
  let xb ← lift (s.bind b)
  let p ← lift (s.bindPriority b)
  let s ← if xb.user.name = nm "main" then onMain s else pure s
  match ← lift (nameLookup s.funTab xb.user.name) with
  | none => do
    let t ← addtoGlobal .funs s.funTab xb.user.name b (strhash xb.user.name)
    pure ({ s with funTab := t }, ⟨true, true⟩)
  | some head => do
    let hp ← lift (s.bindPriority head)
    if hp < p then do
      let s ← insertAtHead s b head
      pure (s, ⟨false, true⟩)
    else
      match ← lift (findPos s p xb.user.wrapper (s.binds.length + 1) head) with
      | none => pure (s, ⟨false, false⟩)
      | some pos => do
        let s ← lift (s.insertAfter b pos)
        pure (s, ⟨false, false⟩)

/-- src/gotcha.c:362-391 `update_library_got`: allocates the library record only. -/
def updateLib (env : Env) (t : HTable Name Nat) (s : State) (l : Lib) (hasNext : Bool) : M State := do
  let (s, r) ← ensureLib s l
  if !(← lift (s.filter.accepts l hasNext)) then pure s
  else
    match s.libs[r]? with
    | none => fail .outOfBounds
    | some rec =>
      if rec.gen = s.gen then pure s
      else do
        let s ← if rec.writable then pure s
          else do
            let s ← lift (s.markGotWritable env l)
            pure { s with libs := s.libs.modify r (fun x => { x with writable := true }) }
        match ← lift (Elf.relocs l.img) with
        | none => pure s
        | some rl => do
          let s ← lift (writeRelocs t l.addr rl s)
          pure { s with libs := s.libs.modify r (fun x => { x with gen := s.gen }) }

/-- src/gotcha.c:393-400 `update_all_library_gots`, over the rest of the link map. -/
def updateLibs (env : Env) (t : HTable Name Nat) : List Lib → State → M State
  | [], s => pure s
  | l :: ls, s => do
    let s ← updateLib env t s l (!ls.isEmpty)
    updateLibs env t ls s

/-- src/gotcha.c:393-400 `update_all_library_gots`. -/
def updateAll (env : Env) (t : HTable Name Nat) (s : State) : M State :=
  updateLibs env t s.linkMap s

/-- src/tool.c:64-83 `create_tool`: `none` is the NULL returned when the tool cannot be allocated; the
result of `create_hashtable` for `child_tools` is not looked at (:78), and that table is never used. -/
def createTool (ts : Tools) (name : Name) : M (Option (Tools × Nat)) := do
  match ← alloc .tool 1 with
  | some _ => do
    let r ← lift (ts.create name)
    let _ ← alloc .childTools 24
    pure (some r)
  | none => pure none

/-- `get_tool` followed by `create_tool` when absent (src/gotcha.c:427-428 and :496-499). -/
def getOrCreate (ts : Tools) (name : Name) : M (Option (Tools × Nat)) := do
  match ← lift (ts.getTool name) with
  | some i => pure (some (ts, i))
  | none => createTool ts name

/-- src/tool.c:95-144 `add_binding_to_tool`.  The record of the table (:100) and the array of internal
bindings (:102-104) are written without a check, the latter unless the table is empty.  The Boolean is
`false` when the hash table of the bindings cannot be allocated: the function returns NULL, frees the record
(:143) but not the array, and leaves the handles pointing at the internal bindings.  Adding the n names to
that table, which has room for 2n, allocates nothing. -/
def addBindingToTool (tool : Nat) (table : List UBinding) (s : State) : M (State × Bool) := do
  let rec_ ← need .bindRec 1
  match ← alloc .bindArr table.length with
  | some _ => pure ()
  | none => if table.length = 0 then pure () else fail .nullDeref
  let s := addBindings tool table s
  match ← alloc .bindHash (table.length * 2) with
  | some _ => pure (s, true)
  | none => do
    free (some rec_)
    pure (s, false)

/-- The `new_bindings` table of `gotcha_wrap` (src/gotcha.c:467-475): a local variable, whose creation is
not checked; when it fails the variable stays uninitialised and is used. -/
def addNew (env : Env) (n : Nat) (nb : Option (HTable Name Nat × Option Nat)) (name : Name) (b : Nat) :
    M (Option (HTable Name Nat × Option Nat)) := do
  let (t, a) ← match nb with
    | some t => pure t
    | none => do
      match ← create .newBindings env.page (n * 2) with
      | some t => pure t
      | none => fail .uninit
  let t ← addto .newBindings t a name b (strhash name)
  pure (some t)

/-- src/gotcha.c:448-477: the loop over the bindings of a table. -/
def processBindings (env : Env) (onMain : State → M State) (n : Nat) :
    List Nat → State → Option (HTable Name Nat × Option Nat) → Nat →
      M (State × Option (HTable Name Nat × Option Nat) × Nat)
  | [], s, nb, nf => pure (s, nb, nf)
  | b :: bs, s, nb, nf => do
    let xb ← lift (s.bind b)
    let (s, r) ← rewriteOrders onMain s b
    let (s, nf) ←
      if r.lookup then do
        let (s, ok) ← prepareSymbol env s b
        if ok then pure (s, nf)
        else do
          let t ← addtoGlobal .missing s.notFound xb.user.name b (strhash xb.user.name)
          pure ({ s with notFound := t }, nf + 1)
      else pure (s, nf)
    let nb ← if r.binding then addNew env n nb xb.user.name b else pure nb
    processBindings env onMain n bs s nb nf

/-- src/gotcha.c:423-491: `gotcha_wrap` after `gotcha_init`.  `new_bindings` is destroyed at :481.  The return code `none` is GOTCHA_INTERNAL. -/
def wrapCore (env : Env) (onMain : State → M State) (table : List UBinding) (tool : Option Name)
    (s : State) : M (State × Option RetCode) := do
  let s := table.foldl (fun s u => s.setHandle u.handle none) s
  match ← getOrCreate s.tools (tool.getD (nm "[UNSPECIFIED]")) with
  | none => pure (s, none)
  | some (ts, tid) => do
    let s : State := { s with tools := ts, gen := s.gen + 1 }
    let base := s.binds.length
    let (s, ok) ← addBindingToTool tid table s
    if !ok then pure (s, none)
    else do
      let (s, nb, nf) ←
        processBindings env onMain table.length (List.range' base table.length) s none 0
      let s ← match nb with
        | none => pure s
        | some (t, a) => do
          let s ← updateAll env t s
          free a
          pure s
      pure (s, some (if nf > 0 then .functionNotFound else .success))

/-- `gotcha_wrap` as called from inside the "main" block. -/
def wrapInner (env : Env) (table : List UBinding) (tool : Option Name) (s : State) :
    M (State × Option RetCode) :=
  wrapCore env (fun s => pure s) table tool s

/-- src/gotcha.c:149-156: what `rewrite_wrapper_orders` does for the name "main".  The return codes are
not looked at. -/
def onMainReal (env : Env) (s : State) : M State :=
  if s.mainWrapped then pure s
  else do
    let s : State := { s with mainWrapped := true }
    let (s, _) ← wrapInner env (libcMainTable env) (some (nm "gotcha")) s
    let (s, _) ← wrapInner env (mainTable env) (some (nm "gotcha")) s
    pure s

/-- `gotcha_wrap` once GOTCHA is initialised. -/
def wrapBody (env : Env) (table : List UBinding) (tool : Option Name) (s : State) :
    M (State × Option RetCode) :=
  wrapCore env (onMainReal env) table tool s

/-- src/gotcha_utils.c:65-72: `create_hashtable` of a global table, whose result is not looked at. -/
def createGlobal (w : Which) (page initial : Nat) (old : HTable K D) : M (HTable K D) := do
  match ← create (.table w) page initial with
  | some (t, a) => do
    setArr w a
    pure t
  | none => pure old

/-- src/gotcha_utils.c:107-116 `gotcha_init` with :65-72 `setup_hash_tables` and src/gotcha_dl.c:190
`handle_libdl`.  None of the results is looked at: a table that cannot be created keeps size 0, and a
failed `gotcha_wrap` of dlopen and dlsym goes unnoticed. -/
def gotchaInit (env : Env) (s : State) : M State :=
  if s.inited then pure s
  else do
    let s : State := { s with inited := true }
    let lt ← createGlobal .libs env.page 128 s.libTab
    let ft ← createGlobal .funs env.page 4096 s.funTab
    let nt ← createGlobal .missing env.page 128 s.notFound
    let s : State := { s with libTab := lt, funTab := ft, notFound := nt }
    let (s, _) ← wrapBody env (dlTable env) (some (nm "gotcha")) s
    pure s

/-- src/gotcha.c:402-491 `gotcha_wrap`. -/
def gotchaWrap (env : Env) (table : List UBinding) (tool : Option Name) (s : State) :
    M (State × Option RetCode) := do
  let s ← gotchaInit env s
  wrapBody env table tool s

/-- src/gotcha.c:509-527 `gotcha_set_priority` with :493-507 `gotcha_configure_int`: the tool created
there is used without a check (:502).  Once the tool exists the second `get_tool` finds it. -/
def gotchaSetPriority (env : Env) (tool : Name) (v : Int) (s : State) : M State := do
  let s ← gotchaInit env s
  match ← getOrCreate s.tools tool with
  | none => fail .nullDeref
  | some (ts1, i) => do
    let ts2 : Tools := { ts1 with store := ts1.store.modify i (fun t => { t with priority := v }) }
    match ← getOrCreate ts2 tool with
    | none => fail .nullDeref
    | some (ts3, j) => do
      let ts4 ← lift (ts3.remove j)
      let ts5 ← lift (ts4.reorder j)
      pure { s with tools := ts5 }

/-- src/gotcha.c:529-533 `gotcha_get_priority`. -/
def gotchaGetPriority (env : Env) (tool : Name) (s : State) : M (State × Option Int) := do
  let s ← gotchaInit env s
  let v ← lift (s.tools.getPriority tool)
  pure (s, v)

/-- src/gotcha_dl.c:107-135 `per_binding`. -/
def perBinding (env : Env) (key : Option Name) (data : Option Nat) (s : State) : M (State × Bool) := do
  match key, data with
  | some k, some b => do
    let b ← lift (innermost s (s.binds.length + 1) b)
    let (s, ok) ← prepareSymbol env s b
    if ok then do
      let (t, _) ← lift (s.notFound.removefrom (strhash k) (fun x => x = k))
      pure ({ s with notFound := t }, false)
    else pure (s, false)
  | _, _ => fail .nullDeref

/-- src/hash.c:202-212 `foreach_hash_entry` with `per_binding` on the table of functions not found. -/
def foreachNotFound (env : Env) : Nat → Option Nat → State → M State
  | _, none, s => pure s
  | 0, some _, _ => fail .diverge
  | fuel + 1, some i, s =>
    match s.notFound.slots[i]? with
    | none => fail .outOfBounds
    | some e => do
      let (s', stop) ← perBinding env e.key e.data s
      if stop then pure s'
      else
        match s'.notFound.slots[i]? with
        | none => fail .outOfBounds
        | some e' => foreachNotFound env fuel e'.next s'

/-- src/gotcha_dl.c:137-152 `dlopen_wrapper`; `ld` is what the real dlopen loads. -/
def dlopenWrapper (env : Env) (ld : Load) (s : State) : M State := do
  let _ ← lift (s.getWrappee env.hDlopen)
  let s := s.load ld
  let s ← foreachNotFound env s.notFound.slots.length s.notFound.head s
  updateAll env s.funTab s

/-- One event with the heap.  The return codes and priorities are not kept. -/
def stepOp (env : Env) : Op → State → M State
  | .wrap tbl tool, s => do
    let (s, _) ← gotchaWrap env tbl tool s
    pure s
  | .setPriority tool v, s => gotchaSetPriority env tool v s
  | .getPriority tool, s => do
    let (s, _) ← gotchaGetPriority env tool s
    pure s
  | .setFilter f, s => pure { s with filter := f }
  | .dlopen ld, s => if s.inited then dlopenWrapper env ld s else pure (s.load ld)
  | .load ld, s => pure (s.load ld)
  | .unload dead, s => pure (s.unload dead)

/-- A history of events with the heap. -/
def run (env : Env) : List Op → State → M State
  | [], s => pure s
  | op :: ops, s => do
    let s ← stepOp env op s
    run env ops s

end Gotcha.Heap
