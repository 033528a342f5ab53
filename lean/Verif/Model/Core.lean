import Verif.Model.Hash
import Verif.Model.Tool
import Verif.Model.Got
/-
Model of the interception engine: src/gotcha.c, src/gotcha_dl.c, src/translations.c,
src/library_filters.c, src/gotcha_utils.c (tables, library records, initialisation) and the cached
answer of `is_vdso` (src/gotcha_auxv.c:239-268).

* `struct internal_binding_t *` is an index into the append-only `binds` (internal bindings are
  never freed); the handle variables of the users (`gotcha_wrappee_handle_t`, pointed to by
  `function_handle`) are cells `HAddr`; a cell holds a binding pointer or NULL.
* The memory of the process outside GOTCHA is `mem` (one cell per 8-byte GOT word) with the page
  protection `wr`; a write where `wr` is false is the fault `segv`.
* The link map, the loader's effect of loading objects, page size, vdso detection, mprotect results
  and the real dlsym/dlopen are inputs.
* Debug output is not modelled.  Allocation failure is in `Model/Oom`.
-/
namespace Gotcha

/-- Address of a user's handle variable. -/
abbrev HAddr := Nat
/-- `struct internal_binding_t *`: an index into `State.binds`. -/
notation "BId" => Nat

/-- include/gotcha/gotcha_types.h `struct gotcha_binding_t`.  The library keeps a pointer to the
user's array and reads it later; the model copies it (documented requirement: the array stays
unmodified). -/
structure UBinding where
  name : Name
  wrapper : Addr
  handle : HAddr
  deriving DecidableEq, Repr

/-- src/tool.h:81-86 `struct internal_binding_t`; `tool` is `associated_binding_table->tool`.
`wrappee = none` means the field has never been written (it is not initialised by
`add_binding_to_tool`). -/
structure IBinding where
  tool : Nat
  user : UBinding
  next : Option BId
  wrappee : Option Addr
  deriving DecidableEq, Repr

/-- src/tool.h:41-47 `struct library_t` (`generation`, the flag `LIB_GOT_MARKED_WRITEABLE`, `map`). -/
structure LibRec where
  gen : BitVec 32
  writable : Bool
  map : Addr
  deriving DecidableEq, Repr

/-- The library filter in force (src/library_filters.c:20-46).  A user-supplied function may look at
the object and at `l_next`. -/
inductive Filter where
  | all
  | byName (f : Option Name)
  | last
  | custom (f : Lib → Bool → Bool)

/-- What is fixed for a process: page size, the addresses of GOTCHA's own wrapper functions and
handle variables, the vdso found on a given link map (src/gotcha_auxv.c; modelled in
`Model/Auxv`), and whether mprotect succeeds. -/
structure Env where
  page : Nat
  vdsoOf : List Lib → Option Addr
  mprotect : Addr × BitVec 64 → Bool
  dlopenW : Addr
  dlsymW : Addr
  libcMainW : Addr
  mainW : Addr
  hDlopen : HAddr
  hDlsym : HAddr
  hLibcMain : HAddr
  hMain : HAddr

/-- The state of a process using GOTCHA. -/
structure State where
  inited : Bool
  tools : Tools
  binds : List IBinding
  handles : HAddr → Option BId
  funTab : HTable Name BId
  notFound : HTable Name BId
  libTab : HTable Addr Nat
  libs : List LibRec
  gen : BitVec 32
  filter : Filter
  mainWrapped : Bool
  vdso : Option (Option Addr)
  linkMap : List Lib
  mem : Addr → Addr
  wr : Addr → Bool

/-- Return codes (include/gotcha/gotcha_types.h `enum gotcha_error_t`; GOTCHA_INTERNAL only follows
allocation failure). -/
inductive RetCode where
  | success | functionNotFound | invalidTool
  deriving DecidableEq, Repr

/-- The process before the first call into GOTCHA: static variables are zero (so the hash tables
have size 0). -/
def State.start (linkMap : List Lib) (mem : Addr → Addr) (wr : Addr → Bool) : State :=
  { inited := false, tools := {}, binds := [], handles := fun _ => none,
    funTab := .blank 0, notFound := .blank 0, libTab := .blank 0, libs := [], gen := 0,
    filter := .all, mainWrapped := false, vdso := none, linkMap, mem, wr }

/-! ### handles and bindings -/

/-- src/gotcha.c:36-41 `setBindingAddressPointer`. -/
def State.setHandle (s : State) (h : HAddr) (v : Option BId) : State :=
  { s with handles := fun x => if x = h then v else s.handles x }

/-- src/gotcha.c:47-53 `setInternalBindingAddressPointer(handle, v)`: writes the wrappee field of
the binding the handle *currently* points to. -/
def State.setInternal (s : State) (h : HAddr) (v : Option Addr) : Except Fault State :=
  match s.handles h with
  | none => .error .nullDeref
  | some b =>
    if b < s.binds.length then
      .ok { s with binds := s.binds.modify b (fun x => { x with wrappee := v }) }
    else .error .outOfBounds

/-- Dereference a binding pointer. -/
def State.bind (s : State) (b : BId) : Except Fault IBinding :=
  match s.binds[b]? with
  | none => .error .outOfBounds
  | some x => .ok x

/-- src/gotcha.c:535-537 `gotcha_get_wrappee(*handle variable)`. -/
def State.getWrappee (s : State) (h : HAddr) : Except Fault Addr :=
  match s.handles h with
  | none => .error .nullDeref
  | some b =>
    match s.bind b with
    | .error f => .error f
    | .ok x => match x.wrappee with
      | none => .error .uninit
      | some a => .ok a

/-- `get_priority(b->associated_binding_table->tool)` (src/tool.c:195). -/
def State.bindPriority (s : State) (b : BId) : Except Fault Int := do
  let x ← s.bind b
  s.tools.priorityOf x.tool

/-! ### library records -/

/-- src/gotcha_utils.h:71-72 LIB_NAME. -/
def libName (n : Option Name) : Name :=
  match n with
  | none => nm "[NULL]"
  | some [] => nm "[EMPTY]"
  | some s => s

/-- src/gotcha_utils.c:55-59 `link_map_hash`. -/
def linkMapHash (l : Lib) : BitVec 32 := l.lm.setWidth 32 ^^^ strhash (libName l.name)

/-- src/gotcha_utils.c:61-63 `link_map_cmp(stored, key) == 0`. -/
def linkMapEq (key stored : Addr) : Bool := decide (¬ stored < key)

/-- src/gotcha_utils.c:74-81 `get_library` followed by :83-94 `add_library` when absent, as in
`prepare_symbol` (src/gotcha.c:105-109) and `update_library_got` (:364-368).  The `next`/`prev` list
of library records is not modelled (only `remove_library`, which nothing calls, reads it). -/
def State.ensureLib (s : State) (l : Lib) : Except Fault (State × Nat) := do
  match ← s.libTab.lookup (linkMapHash l) (linkMapEq l.lm) with
  | some r => .ok (s, r)
  | none =>
    let t ← s.libTab.addto l.lm s.libs.length (linkMapHash l)
    .ok ({ s with libTab := t, libs := s.libs ++ [⟨0, false, l.lm⟩] },
         s.libs.length)

/-- src/gotcha_auxv.c:239-268 `is_vdso`: the first call decides which link_map is the vdso. -/
def State.isVdso (env : Env) (s : State) (l : Lib) : State × Bool :=
  match s.vdso with
  | some v => (s, v = some l.lm)
  | none =>
    let v := env.vdsoOf s.linkMap
    ({ s with vdso := some v }, v = some l.lm)

/-- src/gotcha.c:55-96 `lookup_exported_symbol`. -/
def State.lookupExported (env : Env) (s : State) (name : Name) (l : Lib) :
    Except Fault (State × Option Addr) :=
  match s.isVdso env l with
  | (s, true) => .ok (s, none)
  | (s, false) =>
    match Elf.exported l.img l.addr name with
    | .error f => .error f
    | .ok r => .ok (s, r)

/-- src/gotcha.c:104-116: the loop of `prepare_symbol`.  Simplification: the `long` symbol index is
returned through an `int` and compared with -1; the model keeps found/not found. -/
def prepareLoop (env : Env) (name : Name) (h : HAddr) :
    List Lib → State → Except Fault (State × Bool)
  | [], s => .ok (s, false)
  | l :: ls, s => do
    let (s, _) ← s.ensureLib l
    let (s, r) ← s.lookupExported env name l
    match r with
    | some a =>
      let s ← s.setInternal h (some a)
      .ok (s, true)
    | none => prepareLoop env name h ls s

/-- src/gotcha.c:98-119 `prepare_symbol`; `true` is return value 0. -/
def State.prepareSymbol (env : Env) (s : State) (b : BId) : Except Fault (State × Bool) := do
  let x ← s.bind b
  prepareLoop env x.user.name x.user.handle s.linkMap s

/-! ### the stack of wrappers of one function -/

/-- `lookup_hashtable` on a table with string keys. -/
def nameLookup (t : HTable Name BId) (n : Name) : Except Fault (Option BId) :=
  t.lookup (strhash n) (fun k => k = n)

/-- src/gotcha.c:121-130 `insert_at_head`. -/
def State.insertAtHead (s : State) (b head : BId) : Except Fault State := do
  let xb ← s.bind b
  let xh ← s.bind head
  let s := { s with binds := s.binds.modify b (fun x => { x with next := some head }) }
  let s ← s.setInternal xb.user.handle (some xh.user.wrapper)
  let (t, _) ← s.funTab.removefrom (strhash xb.user.name) (fun k => k = xb.user.name)
  let t ← t.addto xb.user.name b (strhash xb.user.name)
  .ok { s with funTab := t }

/-- src/gotcha.c:132-140 `insert_after_pos`.  `pos->wrappee_pointer` may be indeterminate; copying an
indeterminate pointer value is modelled as copying "never written". -/
def State.insertAfter (s : State) (b pos : BId) : Except Fault State := do
  let xb ← s.bind b
  let xp ← s.bind pos
  let s ← s.setInternal xb.user.handle xp.wrappee
  let s ← s.setInternal xp.user.handle (some xb.user.wrapper)
  let xp ← s.bind pos
  let s := { s with binds := s.binds.modify b (fun x => { x with next := xp.next }) }
  .ok { s with binds := s.binds.modify pos (fun x => { x with next := some b }) }

/-- src/gotcha.c:184-202: the loop of `rewrite_wrapper_orders`.  `none` is the early return "already
inserted", `some cur` the element after which to insert. -/
def findPos (s : State) (p : Int) (w : Addr) : Nat → BId → Except Fault (Option BId)
  | 0, _ => .error .diverge
  | fuel + 1, cur => do
    let x ← s.bind cur
    match x.next with
    | none => .ok (some cur)
    | some n =>
      let np ← s.bindPriority n
      if np < p then .ok (some cur)
      else if x.user.wrapper = w then .ok none
      else findPos s p w fuel n

/-- Result of `rewrite_wrapper_orders` (src/gotcha.c:142-144). -/
structure RWO where
  lookup : Bool
  binding : Bool
  deriving DecidableEq, Repr

/-- src/gotcha.c:145-207 `rewrite_wrapper_orders`.  `onMain` is the block :149-156 executed for the
name "main" (it calls `gotcha_wrap` recursively, see `onMainReal`). -/
def rewriteOrders (onMain : State → Except Fault State) (s : State) (b : BId) :
    Except Fault (State × RWO) := do
  let xb ← s.bind b
  let p ← s.bindPriority b
  let s ← if xb.user.name = nm "main" then onMain s else .ok s
  match ← nameLookup s.funTab xb.user.name with
  | none =>
    let t ← s.funTab.addto xb.user.name b (strhash xb.user.name)
    .ok ({ s with funTab := t }, ⟨true, true⟩)
  | some head =>
    let hp ← s.bindPriority head
    if hp < p then
      let s ← s.insertAtHead b head
      .ok (s, ⟨false, true⟩)
    else
      match ← findPos s p xb.user.wrapper (s.binds.length + 1) head with
      | none => .ok (s, ⟨false, false⟩)
      | some pos =>
        let s ← s.insertAfter b pos
        .ok (s, ⟨false, false⟩)

/-! ### rewriting the GOTs -/

/-- `strstr(n, f) != NULL`: `f` occurs in `n`. -/
def occursIn (f : Name) : Name → Bool
  | [] => f.isEmpty
  | c :: n => f.isPrefixOf (c :: n) || occursIn f n

/-- `libraryFilterFunc(map)` (src/library_filters.c:23-33).  `hasNext` is `l_next != NULL`.  In the
default build `gotcha_strstr` is libc's strstr: non-NULL iff the filter occurs in the name; a NULL
`l_name` is dereferenced. -/
def Filter.accepts : Filter → Lib → Bool → Except Fault Bool
  | .all, _, _ => .ok true
  | .byName none, _, _ => .ok false
  | .byName (some f), l, _ =>
    match l.name with
    | none => .error .nullDeref
    | some n => .ok (occursIn f n)
  | .last, _, hasNext => .ok (!hasNext)
  | .custom f, l, hasNext => .ok (f l hasNext)

/-- Effect of one successful `mprotect(.., PROT_READ|PROT_WRITE|PROT_EXEC)`; a failure is only
reported (src/gotcha.c:305-311 and the like). -/
def State.unprotect (env : Env) (s : State) (r : Addr × BitVec 64) : State :=
  if env.mprotect r then
    { s with wr := fun a => if Got.inRange a r then true else s.wr a }
  else s

/-- src/gotcha.c:264-360 `mark_got_writable`. -/
def State.markGotWritable (env : Env) (s : State) (l : Lib) : Except Fault State :=
  match Got.markCalls (BitVec.ofNat 64 env.page) s.linkMap l with
  | .error f => .error f
  | .ok rs => .ok (rs.foldl (State.unprotect env) s)

/-- src/gotcha.c:30 `writeAddress` into the memory of a target library. -/
def State.write (s : State) (a v : Addr) : Except Fault State :=
  if s.wr a then .ok { s with mem := fun x => if x = a then v else s.mem x }
  else .error .segv

/-- src/gotcha.c:209-224 `update_lib_bindings` applied to every visited relocation
(FOR_EACH_PLTREL). -/
def writeRelocs (t : HTable Name BId) (lAddr : Addr) :
    List (Addr × Name) → State → Except Fault State
  | [], s => .ok s
  | (off, name) :: rest, s => do
    match ← nameLookup t name with
    | none => writeRelocs t lAddr rest s
    | some b =>
      let x ← s.bind b
      let s ← s.write (lAddr + off) x.user.wrapper
      writeRelocs t lAddr rest s

/-- src/gotcha.c:362-391 `update_library_got`.  When `l_ld` is NULL, INIT_DYNAMIC inside
FOR_EACH_PLTREL returns from the function before the generation is recorded. -/
def State.updateLib (env : Env) (t : HTable Name BId) (s : State) (l : Lib) (hasNext : Bool) :
    Except Fault State := do
  let (s, r) ← s.ensureLib l
  if !(← s.filter.accepts l hasNext) then .ok s
  else
    match s.libs[r]? with
    | none => .error .outOfBounds
    | some rec =>
      if rec.gen = s.gen then .ok s
      else
        let s ← if rec.writable then .ok s
          else do
            let s ← s.markGotWritable env l
            .ok { s with libs := s.libs.modify r (fun x => { x with writable := true }) }
        match ← Elf.relocs l.img with
        | none => .ok s
        | some rl =>
          let s ← writeRelocs t l.addr rl s
          .ok { s with libs := s.libs.modify r (fun x => { x with gen := s.gen }) }

/-- src/gotcha.c:393-400 `update_all_library_gots`, over the rest of the link map. -/
def updateLibs (env : Env) (t : HTable Name BId) : List Lib → State → Except Fault State
  | [], s => .ok s
  | l :: ls, s => do
    let s ← s.updateLib env t l (!ls.isEmpty)
    updateLibs env t ls s

/-- src/gotcha.c:393-400 `update_all_library_gots`. -/
def State.updateAll (env : Env) (t : HTable Name BId) (s : State) : Except Fault State :=
  updateLibs env t s.linkMap s

/-! ### gotcha_wrap -/

/-- src/tool.c:95-138 `add_binding_to_tool`: internal bindings for the whole table, every handle
pointed at its binding.  The per-table hash table `binding_hash` is built there but never read; it
is not modelled. -/
def addBindings (tool : Nat) : List UBinding → State → State
  | [], s => s
  | u :: us, s =>
    let b := s.binds.length
    let s : State :=
      { s with binds := s.binds ++ [{ tool, user := u, next := none, wrappee := none }] }
    addBindings tool us (s.setHandle u.handle (some b))

/-- The `new_bindings` table of `gotcha_wrap`: created at first use with room for `2n`. -/
def addNew (env : Env) (n : Nat) (nb : Option (HTable Name BId)) (name : Name) (b : BId) :
    Except Fault (Option (HTable Name BId)) := do
  let t ← match nb with
    | some t => Except.ok t
    | none => HTable.create env.page (n * 2)
  let t ← t.addto name b (strhash name)
  .ok (some t)

/-- src/gotcha.c:448-477: the loop over the bindings of a table; accumulates `new_bindings` and
`not_found`. -/
def processBindings (env : Env) (onMain : State → Except Fault State) (n : Nat) :
    List BId → State → Option (HTable Name BId) → Nat →
    Except Fault (State × Option (HTable Name BId) × Nat)
  | [], s, nb, nf => .ok (s, nb, nf)
  | b :: bs, s, nb, nf => do
    let xb ← s.bind b
    let (s, r) ← rewriteOrders onMain s b
    let (s, nf) ←
      if r.lookup then do
        let (s, ok) ← s.prepareSymbol env b
        if ok then .ok (s, nf)
        else do
          let t ← s.notFound.addto xb.user.name b (strhash xb.user.name)
          .ok ({ s with notFound := t }, nf + 1)
      else .ok (s, nf)
    let nb ← if r.binding then addNew env n nb xb.user.name b else .ok nb
    processBindings env onMain n bs s nb nf

/-- src/gotcha.c:423-491: `gotcha_wrap` after `gotcha_init`.  `onMain` as in `rewriteOrders`. -/
def wrapCore (env : Env) (onMain : State → Except Fault State) (table : List UBinding)
    (tool : Option Name) (s : State) : Except Fault (State × RetCode) := do
  let s := table.foldl (fun s u => s.setHandle u.handle none) s
  let (ts, tid) ← s.tools.getOrCreate (tool.getD (nm "[UNSPECIFIED]"))
  let s := { s with tools := ts, gen := s.gen + 1 }
  let base := s.binds.length
  let s := addBindings tid table s
  let (s, nb, nf) ←
    processBindings env onMain table.length (List.range' base table.length) s none 0
  let s ← match nb with
    | none => Except.ok s
    | some t => s.updateAll env t
  .ok (s, if nf > 0 then .functionNotFound else .success)

/-- src/translations.c:48-50 `libc_main_wrappers`. -/
def libcMainTable (env : Env) : List UBinding :=
  [⟨nm "__libc_start_main", env.libcMainW, env.hLibcMain⟩]

/-- src/translations.c:51-52 `main_wrappers`. -/
def mainTable (env : Env) : List UBinding := [⟨nm "main", env.mainW, env.hMain⟩]

/-- src/gotcha_dl.c:187-189 `dl_binds`. -/
def dlTable (env : Env) : List UBinding :=
  [⟨nm "dlopen", env.dlopenW, env.hDlopen⟩, ⟨nm "dlsym", env.dlsymW, env.hDlsym⟩]

/-- `gotcha_wrap` as called from inside the "main" block: `main_wrapped` is already set, so the block
is a no-op at this depth. -/
def wrapInner (env : Env) (table : List UBinding) (tool : Option Name) (s : State) :
    Except Fault (State × RetCode) :=
  wrapCore env (fun s => .ok s) table tool s

/-- src/gotcha.c:149-156: what `rewrite_wrapper_orders` does for the name "main". -/
def onMainReal (env : Env) (s : State) : Except Fault State :=
  if s.mainWrapped then .ok s
  else do
    let s := { s with mainWrapped := true }
    let (s, _) ← wrapInner env (libcMainTable env) (some (nm "gotcha")) s
    let (s, _) ← wrapInner env (mainTable env) (some (nm "gotcha")) s
    .ok s

/-- `gotcha_wrap` once GOTCHA is initialised. -/
def wrapBody (env : Env) (table : List UBinding) (tool : Option Name) (s : State) :
    Except Fault (State × RetCode) :=
  wrapCore env (onMainReal env) table tool s

/-- src/gotcha_utils.c:107-116 `gotcha_init` with :65-72 `setup_hash_tables` and
src/gotcha_dl.c:190 `handle_libdl`. -/
def gotchaInit (env : Env) (s : State) : Except Fault State :=
  if s.inited then .ok s
  else do
    let lt ← HTable.create env.page 128
    let ft ← HTable.create env.page 4096
    let nt ← HTable.create env.page 128
    let s := { s with inited := true, libTab := lt, funTab := ft, notFound := nt }
    let (s, _) ← wrapBody env (dlTable env) (some (nm "gotcha")) s
    .ok s

/-- src/gotcha.c:402-491 `gotcha_wrap`. -/
def gotchaWrap (env : Env) (table : List UBinding) (tool : Option Name) (s : State) :
    Except Fault (State × RetCode) := do
  let s ← gotchaInit env s
  wrapBody env table tool s

/-- src/gotcha.c:509-527 `gotcha_set_priority`. -/
def gotchaSetPriority (env : Env) (tool : Name) (v : Int) (s : State) : Except Fault State := do
  let s ← gotchaInit env s
  let ts ← s.tools.setPriority tool v
  .ok { s with tools := ts }

/-- src/gotcha.c:529-533 `gotcha_get_priority`: the value stored through `priority` with
`GOTCHA_SUCCESS`, or `none` for `GOTCHA_INVALID_TOOL` (nothing stored). -/
def gotchaGetPriority (env : Env) (tool : Name) (s : State) :
    Except Fault (State × Option Int) := do
  let s ← gotchaInit env s
  let v ← s.tools.getPriority tool
  .ok (s, v)

/-! ### dlopen and dlsym -/

/-- What the loader does when it loads objects: new entries at the end of the link map, and the
words and protections it sets up (its own relocation processing). -/
structure Load where
  libs : List Lib
  mem : Addr → Option Addr
  wr : Addr → Option Bool

/-- The loader's effect. -/
def State.load (s : State) (ld : Load) : State :=
  { s with
    linkMap := s.linkMap ++ ld.libs
    mem := fun a => (ld.mem a).getD (s.mem a)
    wr := fun a => (ld.wr a).getD (s.wr a) }

/-- The loader's effect of dlclose removing objects from the link map (GOTCHA does not intercept
dlclose and keeps its library records). -/
def State.unload (s : State) (dead : Addr → Bool) : State :=
  { s with linkMap := s.linkMap.filter (fun l => !dead l.lm) }

/-- src/gotcha_dl.c:117-124: follow `next_binding` to the innermost binding. -/
def innermost (s : State) : Nat → BId → Except Fault BId
  | 0, _ => .error .diverge
  | fuel + 1, b => do
    let x ← s.bind b
    match x.next with
    | none => .ok b
    | some n => innermost s fuel n

/-- src/gotcha_dl.c:107-135 `per_binding` (never asks to stop).  The test of :116 for a NULL name is
not modelled: names are non-NULL. -/
def perBinding (env : Env) (key : Option Name) (data : Option BId) (s : State) :
    Except Fault (State × Bool) := do
  match key, data with
  | some k, some b =>
    let b ← innermost s (s.binds.length + 1) b
    let (s, ok) ← s.prepareSymbol env b
    if ok then
      let (t, _) ← s.notFound.removefrom (strhash k) (fun x => x = k)
      .ok ({ s with notFound := t }, false)
    else .ok (s, false)
  | _, _ => .error .nullDeref

/-- src/gotcha_dl.c:145-150: the part of `dlopen_wrapper` after the real dlopen returned.  Iterations
of `foreach_hash_entry` are bounded by the number of slots. -/
def State.afterDlopen (env : Env) (s : State) : Except Fault State := do
  let s ← foreachEntry State.notFound (perBinding env) s.notFound.slots.length s.notFound.head s
  s.updateAll env s.funTab

/-- src/gotcha_dl.c:137-152 `dlopen_wrapper`; `ld` is what the real dlopen loads. -/
def dlopenWrapper (env : Env) (ld : Load) (s : State) : Except Fault State := do
  let _ ← s.getWrappee env.hDlopen
  (s.load ld).afterDlopen env

/-- The first argument of dlsym. -/
inductive DlHandle where
  | next
  | other (h : Nat)
  deriving DecidableEq, Repr

/-- src/gotcha_dl.c:29-57 `lib_header_callback` for one object: does it contain `who` in a PT_LOAD
segment, and if so which link-map entry (searched from the head) has its name and load address.
The result is the tail of the link map starting at that entry. -/
def headerCallback (linkMap : List Lib) (who : Addr) (o : Lib) : Option (List Lib) :=
  if o.phdrs.any (fun p => p.type = Got.PT_LOAD ∧ who ≥ o.addr + p.vaddr ∧
      who < o.addr + p.vaddr + p.memsz) then
    match linkMap.dropWhile (fun l => !(l.name = o.name ∧ o.addr = l.addr)) with
    | [] => none
    | ls => some ls
  else none

/-- src/gotcha_dl.c:93-108 (loop): first library exporting `name`. -/
def firstExporting (env : Env) (name : Name) : List Lib → State →
    Except Fault (State × Option Lib)
  | [], s => .ok (s, none)
  | l :: ls, s => do
    let (s, r) ← s.lookupExported env name l
    match r with
    | some _ => .ok (s, some l)
    | none => firstExporting env name ls s

/-- src/gotcha_dl.c:70-101 `gotchas_dlsym_rtld_next_lookup`. -/
def rtldNextLookup (env : Env) (name : Name) (who : Addr) (s : State) :
    Except Fault (State × Option Lib) :=
  match s.linkMap.findSome? (headerCallback s.linkMap who) with
  | none => .error .exit
  | some [] => .error .nullDeref
  | some (_ :: rest) => firstExporting env name rest s

/-- The real dlopen/dlsym as `dlsym_wrapper` uses them: `dlsym h name` (0 is NULL), and the handle
dlopen returns for a library name. -/
structure RealDl where
  dlsym : DlHandle → Name → Addr
  dlopen : Option Name → DlHandle

/-- src/gotcha_dl.c:154-185 `dlsym_wrapper`; `who` is the return address of the call. -/
def dlsymWrapper (env : Env) (real : RealDl) (h : DlHandle) (name : Name) (who : Addr)
    (s : State) : Except Fault (State × Addr) := do
  let _ ← s.getWrappee env.hDlopen
  let _ ← s.getWrappee env.hDlsym
  let val := real.dlsym h name
  let other : Except Fault (State × Addr) :=
    match h with
    | .next => do
      let (s, l) ← rtldNextLookup env name who s
      match l with
      | some l => .ok (s, real.dlsym (real.dlopen l.name) name)
      | none => .ok (s, 0)
    | .other _ => .ok (s, val)
  match ← nameLookup s.funTab name with
  | none => other
  | some b =>
    let x ← s.bind b
    if val = 0 then
      -- `*wrappee_ptr` is computed as an address only; short-circuit avoids reading it
      match s.handles x.user.handle with
      | none => .error .nullDeref
      | some _ => .ok (s, x.user.wrapper)
    else
      let w ← s.getWrappee x.user.handle
      if w = val then .ok (s, x.user.wrapper) else other

/-! ### calls -/

/-- src/translations.c:35-52: what the intercepted `__libc_start_main` passes to the real one as the
program's main function. -/
def libcStartMainArg (env : Env) (s : State) : Except Fault Addr := s.getWrappee env.hMain

/-- src/translations.c:29-33 `gotcha_internal_main`: the function called and its arguments. -/
def internalMain {α : Type} (env : Env) (s : State) (args : α) : Except Fault (Addr × α) := do
  let m ← s.getWrappee env.hMain
  .ok (m, args)

/-- src/translations.c:35-46 `gotcha_internal_libc_start_main(main_arg, ...)`: the function called, the
main function passed to it, and the other arguments. -/
def libcStartMain {α : Type} (env : Env) (s : State) (_mainArg : Addr) (args : α) :
    Except Fault (Addr × Addr × α) := do
  let f ← s.getWrappee env.hLibcMain
  let m ← libcStartMainArg env s
  .ok (f, m, args)

/-! ### histories -/

/-- The events of a process: calls of the public API, intercepted dlopen, and loader activity GOTCHA
does not see. -/
inductive Op where
  /-- `gotcha_wrap(table, n, tool)` -/
  | wrap (table : List UBinding) (tool : Option Name)
  /-- `gotcha_set_priority(tool, v)` -/
  | setPriority (tool : Name) (v : Int)
  /-- `gotcha_get_priority(tool, ..)` -/
  | getPriority (tool : Name)
  /-- `gotcha_filter_libraries_by_name`, `gotcha_only_filter_last`,
  `gotcha_set_library_filter_func`, `gotcha_restore_library_filter_func` -/
  | setFilter (f : Filter)
  /-- a call of dlopen that reaches GOTCHA's wrapper -/
  | dlopen (ld : Load)
  /-- objects loaded without GOTCHA noticing -/
  | load (ld : Load)
  /-- dlclose removing the objects with these link_map addresses -/
  | unload (dead : Addr → Bool)

/-- What the caller sees of an event. -/
inductive Obs where
  | ret (c : RetCode)
  | prio (v : Option Int)
  | unit
  deriving DecidableEq, Repr

/-- One event (src/library_filters.c:34-46 for the filter setters). -/
def stepOp (env : Env) : Op → State → Except Fault (State × Obs)
  | .wrap tbl tool, s => do
    let (s, c) ← gotchaWrap env tbl tool s
    .ok (s, .ret c)
  | .setPriority tool v, s => do
    let s ← gotchaSetPriority env tool v s
    .ok (s, .unit)
  | .getPriority tool, s => do
    let (s, v) ← gotchaGetPriority env tool s
    .ok (s, .prio v)
  | .setFilter f, s => .ok ({ s with filter := f }, .unit)
  | .dlopen ld, s =>
    -- before GOTCHA is initialised a dlopen goes straight to the loader
    if s.inited then do
      let s ← dlopenWrapper env ld s
      .ok (s, .unit)
    else .ok (s.load ld, .unit)
  | .load ld, s => .ok (s.load ld, .unit)
  | .unload dead, s => .ok (s.unload dead, .unit)

/-- A history of events. -/
def run (env : Env) : List Op → State → Except Fault (State × List Obs)
  | [], s => .ok (s, [])
  | op :: ops, s => do
    let (s, o) ← stepOp env op s
    let (s, os) ← run env ops s
    .ok (s, o :: os)

end Gotcha
