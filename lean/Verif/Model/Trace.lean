import Verif.Model.Core
/-
The writes of `gotcha_wrap` and of the intercepted `dlopen` one at a time.

Other threads of the process run while a thread is inside `gotcha_wrap` (GOTCHA takes no lock that a
caller of a wrapped function would wait for), so what they can observe is every state between two
stores.  The functions below are those of `Model/Core` with a record of the state after each store to
memory that a call of a wrapped function reads: the handle variables, the internal bindings and the
words of the GOTs.  That they compute the same result is `Proof/Trace` (`erase_gotchaWrap`) and
`Proof/TraceDl` (`erase_dlopenWrapper`).

Simplifications: stores are sequentially consistent and a store of one pointer is indivisible;
updating a hash table, a library record, the tool list or a page protection is one step that is not
recorded (a call of a wrapped function does not read these).
-/
namespace Gotcha

/-- A computation together with the states it goes through, in order. -/
def Tr (α : Type) : Type := Except Fault (List State × α)

namespace Tr

/-- Nothing recorded. -/
def lift {α : Type} : Except Fault α → Tr α
  | .error f => .error f
  | .ok a => .ok ([], a)

/-- Record the state after a store. -/
def tell (s : State) : Tr Unit := Except.ok ([s], ())

/-- Sequencing. -/
def andThen {α β : Type} (x : Tr α) (f : α → Tr β) : Tr β :=
  match x with
  | .error e => .error e
  | .ok (t, a) =>
    match f a with
    | .error e => .error e
    | .ok (t', b) => .ok (t ++ t', b)

instance : Monad Tr where
  pure a := Except.ok ([], a)
  bind := andThen

/-- Forget the recorded states. -/
def erase {α : Type} : Tr α → Except Fault α
  | .error f => .error f
  | .ok (_, a) => .ok a

end Tr

open Tr

/-- src/gotcha.c:36-41 `setBindingAddressPointer`. -/
def State.setHandleT (s : State) (h : HAddr) (v : Option BId) : Tr State := do
  let s := s.setHandle h v
  tell s
  pure s

/-- src/gotcha.c:47-53 `setInternalBindingAddressPointer`. -/
def State.setInternalT (s : State) (h : HAddr) (v : Option Addr) : Tr State := do
  let s ← lift (s.setInternal h v)
  tell s
  pure s

/-- src/gotcha.c:104-116: the loop of `prepare_symbol`. -/
def prepareLoopT (env : Env) (name : Name) (h : HAddr) : List Lib → State → Tr (State × Bool)
  | [], s => pure (s, false)
  | l :: ls, s => do
    let (s, _) ← lift (s.ensureLib l)
    let (s, r) ← lift (s.lookupExported env name l)
    match r with
    | some a =>
      let s ← s.setInternalT h (some a)
      pure (s, true)
    | none => prepareLoopT env name h ls s

/-- src/gotcha.c:98-119 `prepare_symbol`. -/
def State.prepareSymbolT (env : Env) (s : State) (b : BId) : Tr (State × Bool) := do
  let x ← lift (s.bind b)
  prepareLoopT env x.user.name x.user.handle s.linkMap s

/-- src/gotcha.c:121-130 `insert_at_head`: the link, then the wrappee, then the hash table. -/
def State.insertAtHeadT (s : State) (b head : BId) : Tr State := do
  let xb ← lift (s.bind b)
  let xh ← lift (s.bind head)
  let s := { s with binds := s.binds.modify b (fun x => { x with next := some head }) }
  tell s
  let s ← s.setInternalT xb.user.handle (some xh.user.wrapper)
  let (t, _) ← lift (s.funTab.removefrom (strhash xb.user.name) (fun k => k = xb.user.name))
  let t ← lift (t.addto xb.user.name b (strhash xb.user.name))
  pure { s with funTab := t }

/-- src/gotcha.c:132-140 `insert_after_pos`: the new wrappee, the wrappee of the predecessor, then
the links. -/
def State.insertAfterT (s : State) (b pos : BId) : Tr State := do
  let xb ← lift (s.bind b)
  let xp ← lift (s.bind pos)
  let s ← s.setInternalT xb.user.handle xp.wrappee
  let s ← s.setInternalT xp.user.handle (some xb.user.wrapper)
  let xp ← lift (s.bind pos)
  let s := { s with binds := s.binds.modify b (fun x => { x with next := xp.next }) }
  tell s
  let s := { s with binds := s.binds.modify pos (fun x => { x with next := some b }) }
  tell s
  pure s

/-- src/gotcha.c:145-207 `rewrite_wrapper_orders`. -/
def rewriteOrdersT (onMain : State → Tr State) (s : State) (b : BId) : Tr (State × RWO) := do
  let xb ← lift (s.bind b)
  let p ← lift (s.bindPriority b)
  let s ← if xb.user.name = nm "main" then onMain s else pure s
  match ← lift (nameLookup s.funTab xb.user.name) with
  | none =>
    let t ← lift (s.funTab.addto xb.user.name b (strhash xb.user.name))
    pure ({ s with funTab := t }, ⟨true, true⟩)
  | some head =>
    let hp ← lift (s.bindPriority head)
    if hp < p then
      let s ← s.insertAtHeadT b head
      pure (s, ⟨false, true⟩)
    else
      match ← lift (findPos s p xb.user.wrapper (s.binds.length + 1) head) with
      | none => pure (s, ⟨false, false⟩)
      | some pos =>
        let s ← s.insertAfterT b pos
        pure (s, ⟨false, false⟩)

/-- src/gotcha.c:30 `writeAddress` into a GOT. -/
def State.writeT (s : State) (a v : Addr) : Tr State := do
  let s ← lift (s.write a v)
  tell s
  pure s

/-- src/gotcha.c:209-224 `update_lib_bindings` for every visited relocation. -/
def writeRelocsT (t : HTable Name BId) (lAddr : Addr) :
    List (Addr × Name) → State → Tr State
  | [], s => pure s
  | (off, name) :: rest, s => do
    match ← lift (nameLookup t name) with
    | none => writeRelocsT t lAddr rest s
    | some b =>
      let x ← lift (s.bind b)
      let s ← s.writeT (lAddr + off) x.user.wrapper
      writeRelocsT t lAddr rest s

/-- src/gotcha.c:362-391 `update_library_got`. -/
def State.updateLibT (env : Env) (t : HTable Name BId) (s : State) (l : Lib) (hasNext : Bool) :
    Tr State := do
  let (s, r) ← lift (s.ensureLib l)
  if !(← lift (s.filter.accepts l hasNext)) then pure s
  else
    match s.libs[r]? with
    | none => lift (.error .outOfBounds)
    | some rec =>
      if rec.gen = s.gen then pure s
      else
        let s ← if rec.writable then pure s
          else do
            let s ← lift (s.markGotWritable env l)
            pure { s with libs := s.libs.modify r (fun x => { x with writable := true }) }
        match ← lift (Elf.relocs l.img) with
        | none => pure s
        | some rl =>
          let s ← writeRelocsT t l.addr rl s
          pure { s with libs := s.libs.modify r (fun x => { x with gen := s.gen }) }

/-- src/gotcha.c:393-400 `update_all_library_gots`, over the rest of the link map. -/
def updateLibsT (env : Env) (t : HTable Name BId) : List Lib → State → Tr State
  | [], s => pure s
  | l :: ls, s => do
    let s ← s.updateLibT env t l (!ls.isEmpty)
    updateLibsT env t ls s

/-- src/gotcha.c:393-400 `update_all_library_gots`. -/
def State.updateAllT (env : Env) (t : HTable Name BId) (s : State) : Tr State :=
  updateLibsT env t s.linkMap s

/-- src/gotcha.c:428-430: the handles of the table are set to NULL. -/
def nullHandlesT : List UBinding → State → Tr State
  | [], s => pure s
  | u :: us, s => do
    let s ← s.setHandleT u.handle none
    nullHandlesT us s

/-- src/tool.c:95-138 `add_binding_to_tool`: a binding is written, then its handle set.
(`associated_binding_table`, written after the handle, is not read by calls.) -/
def addBindingsT (tool : Nat) : List UBinding → State → Tr State
  | [], s => pure s
  | u :: us, s => do
    let b := s.binds.length
    let s : State :=
      { s with binds := s.binds ++ [{ tool, user := u, next := none, wrappee := none }] }
    tell s
    let s ← s.setHandleT u.handle (some b)
    addBindingsT tool us s

/-- src/gotcha.c:448-477: the loop over the bindings of a table. -/
def processBindingsT (env : Env) (onMain : State → Tr State) (n : Nat) :
    List BId → State → Option (HTable Name BId) → Nat →
    Tr (State × Option (HTable Name BId) × Nat)
  | [], s, nb, nf => pure (s, nb, nf)
  | b :: bs, s, nb, nf => do
    let xb ← lift (s.bind b)
    let (s, r) ← rewriteOrdersT onMain s b
    let (s, nf) ←
      if r.lookup then do
        let (s, ok) ← s.prepareSymbolT env b
        if ok then pure (s, nf)
        else do
          let t ← lift (s.notFound.addto xb.user.name b (strhash xb.user.name))
          pure ({ s with notFound := t }, nf + 1)
      else pure (s, nf)
    let nb ← lift (if r.binding then addNew env n nb xb.user.name b else .ok nb)
    processBindingsT env onMain n bs s nb nf

/-- src/gotcha.c:423-491: `gotcha_wrap` after `gotcha_init`. -/
def wrapCoreT (env : Env) (onMain : State → Tr State) (table : List UBinding)
    (tool : Option Name) (s : State) : Tr (State × RetCode) := do
  let s ← nullHandlesT table s
  let (ts, tid) ← lift (s.tools.getOrCreate (tool.getD (nm "[UNSPECIFIED]")))
  let s := { s with tools := ts, gen := s.gen + 1 }
  let base := s.binds.length
  let s ← addBindingsT tid table s
  let (s, nb, nf) ←
    processBindingsT env onMain table.length (List.range' base table.length) s none 0
  let s ← match nb with
    | none => pure s
    | some t => s.updateAllT env t
  pure (s, if nf > 0 then .functionNotFound else .success)

/-- src/gotcha.c:149-156: what `rewrite_wrapper_orders` does for the name "main". -/
def onMainRealT (env : Env) (s : State) : Tr State :=
  if s.mainWrapped then pure s
  else do
    let s := { s with mainWrapped := true }
    let (s, _) ← wrapCoreT env (fun s => pure s) (libcMainTable env) (some (nm "gotcha")) s
    let (s, _) ← wrapCoreT env (fun s => pure s) (mainTable env) (some (nm "gotcha")) s
    pure s

/-- src/gotcha_utils.c:107-116 `gotcha_init`. -/
def gotchaInitT (env : Env) (s : State) : Tr State :=
  if s.inited then pure s
  else do
    let lt ← lift (HTable.create env.page 128)
    let ft ← lift (HTable.create env.page 4096)
    let nt ← lift (HTable.create env.page 128)
    let s := { s with inited := true, libTab := lt, funTab := ft, notFound := nt }
    let (s, _) ← wrapCoreT env (onMainRealT env) (dlTable env) (some (nm "gotcha")) s
    pure s

/-- src/gotcha.c:402-491 `gotcha_wrap`. -/
def gotchaWrapT (env : Env) (table : List UBinding) (tool : Option Name) (s : State) :
    Tr (State × RetCode) := do
  let s ← gotchaInitT env s
  wrapCoreT env (onMainRealT env) table tool s

/-! ### dlopen -/

/-- Record several states. -/
def Tr.tells (tr : List State) : Tr Unit := Except.ok (tr, ())

/-- src/gotcha_dl.c:107-135 `per_binding`. -/
def perBindingT (env : Env) (key : Option Name) (data : Option BId) (s : State) :
    Tr (State × Bool) := do
  match key, data with
  | some k, some b =>
    let b ← lift (innermost s (s.binds.length + 1) b)
    let (s, ok) ← s.prepareSymbolT env b
    if ok then
      let (t, _) ← lift (s.notFound.removefrom (strhash k) (fun x => x = k))
      pure ({ s with notFound := t }, false)
    else pure (s, false)
  | _, _ => lift (.error .nullDeref)

/-- `per_binding` as a callback of `foreach_hash_entry` that appends to a log of states. -/
def perBindingLog (env : Env) (key : Option Name) (data : Option BId) (x : State × List State) :
    Except Fault ((State × List State) × Bool) :=
  match perBindingT env key data x.1 with
  | .error f => .error f
  | .ok (tr, (s, stop)) => .ok ((s, x.2 ++ tr), stop)

/-- src/gotcha_dl.c:145-150: `dlopen_wrapper` after the real dlopen returned. -/
def State.afterDlopenT (env : Env) (s : State) : Tr State := do
  let (s, tr) ← lift (foreachEntry (fun x : State × List State => x.1.notFound) (perBindingLog env)
    s.notFound.slots.length s.notFound.head (s, []))
  Tr.tells tr
  s.updateAllT env s.funTab

/-- src/gotcha_dl.c:137-152 `dlopen_wrapper`.  The loading itself is one step: nobody calls through a
GOT the loader has not finished. -/
def dlopenWrapperT (env : Env) (ld : Load) (s : State) : Tr State := do
  let _ ← lift (s.getWrappee env.hDlopen)
  Tr.tells [s.load ld]
  (s.load ld).afterDlopenT env

/-! ### histories -/

/-- One event, as `stepOp`. -/
def stepOpT (env : Env) : Op → State → Tr (State × Obs)
  | .wrap tbl tool, s => do
    let (s, c) ← gotchaWrapT env tbl tool s
    pure (s, .ret c)
  | .setPriority tool v, s => do
    let s ← gotchaInitT env s
    let ts ← lift (s.tools.setPriority tool v)
    pure ({ s with tools := ts }, .unit)
  | .getPriority tool, s => do
    let s ← gotchaInitT env s
    let v ← lift (s.tools.getPriority tool)
    pure (s, .prio v)
  | .setFilter f, s => pure ({ s with filter := f }, .unit)
  | .dlopen ld, s =>
    if s.inited then do
      let s ← dlopenWrapperT env ld s
      pure (s, .unit)
    else pure (s.load ld, .unit)
  | .load ld, s => pure (s.load ld, .unit)
  | .unload dead, s => pure (s.unload dead, .unit)

/-- A history of events, as `run`; the state after each event is recorded too. -/
def runT (env : Env) : List Op → State → Tr (State × List Obs)
  | [], s => pure (s, [])
  | op :: ops, s => do
    let (s, o) ← stepOpT env op s
    tell s
    let (s, os) ← runT env ops s
    pure (s, o :: os)

end Gotcha
