import Verif.Model.Debug
/-
All messages of the engine (`GOTCHA_DEBUG=3`): `debug_printf` and `error_printf` of src/gotcha.c, src/gotcha_dl.c and
src/tool.c.  The functions below are those of `Model/Core` with a record of the messages, in the order in which they
are printed; `Proof/Log` shows that they compute the same results, and that their messages of level 1 are those of
`Model/Debug`.

Simplifications: the message of `debug_init` (level 0, src/gotcha_utils.c:45) is left out; allocations succeed, so
that the `error_printf` calls after a failed allocation are not reached; the messages before a fault are lost.  The
names of tools and functions that are printed are read without a check (`toolName`, `funName`): the binding has just
been read, or is about to be, by code that has the check.
-/
namespace Gotcha

/-- Which of the mprotect calls of `mark_got_writable` a message is about: src/gotcha.c:298, 316, 331, 345. -/
inductive MarkKind where
  | gotAfterPlt
  | pltAfterGot
  | gotOnly
  | pltOnly
  deriving DecidableEq

/-- A message.  Libraries appear by LIB_NAME. -/
inductive Note where
  /-- level 1, see `Model/Debug` -/
  | one (m : Msg)
  /-- level 1, src/gotcha_dl.c:158 -/
  | dlsymCalled (h : DlHandle) (f : Name)
  /-- src/gotcha.c:38-39, with value NULL -/
  | clear (h : HAddr)
  /-- src/gotcha.c:50-51; `v` is the new value of the wrappee pointer of binding `b` -/
  | point (b : BId) (v : Option Addr)
  /-- src/gotcha.c:59-60 -/
  | vdso (addr : Addr) (lib : Name)
  /-- src/gotcha.c:63 -/
  | searching (lib : Name)
  /-- src/gotcha.c:67-68 -/
  | noSymbols (lib : Name)
  /-- src/gotcha.c:73 -/
  | checkGnu (f lib : Name)
  /-- src/gotcha.c:78 -/
  | checkElf (f lib : Name)
  /-- src/gotcha.c:83 -/
  | notIn (f lib : Name)
  /-- src/gotcha.c:87-88 -/
  | hidden (f lib : Name)
  /-- src/gotcha.c:92-93 -/
  | found (f lib : Name) (a : Addr)
  /-- src/gotcha.c:103 -/
  | lookingUp (f : Name)
  /-- src/gotcha.c:107 and 366 (`upd`: in `update_library_got`) -/
  | newLib (upd : Bool) (lib : Name)
  /-- src/gotcha.c:151 -/
  | wrapMain
  /-- src/gotcha.c:158-162 -/
  | rewrite (f tool : Name) (p : Int)
  /-- src/gotcha.c:169 -/
  | newEntry (f : Name)
  /-- src/gotcha.c:176-179 -/
  | toHead (p hp : Int)
  /-- src/gotcha.c:188-193 -/
  | compare (p : Int) (tool : Name) (np : Int)
  /-- src/gotcha.c:199 -/
  | already
  /-- src/gotcha.c:203-204 -/
  | after (tool : Name)
  /-- src/gotcha.c:220-222 -/
  | remap (f : Name) (a : Addr) (lib : Name) (w : Addr)
  /-- src/gotcha.c:298-302, 316-319, 331-333, 345-348 -/
  | mark (k : MarkKind) (lib : Name) (r : Addr × BitVec 64)
  /-- the `error_printf` of src/gotcha.c:307-310, 324-327, 337-340, 353-356 -/
  | markFailed (k : MarkKind)
  /-- src/gotcha.c:371-372 -/
  | skip (lib : Name)
  /-- src/gotcha.c:377-379 -/
  | upToDate (lib : Name)
  /-- src/gotcha.c:395-396 -/
  | callSites (n : Nat)
  /-- src/gotcha.c:415-417 (without place) -/
  | willMap (i : Nat) (f : Name) (w : Addr)
  /-- src/gotcha.c:420-421 -/
  | initNull (n : Nat)
  /-- src/gotcha.c:435-436 -/
  | generation (g : BitVec 32)
  /-- src/gotcha.c:438-440 -/
  | creating
  /-- src/tool.c:138-139 -/
  | tableFor (n : Nat) (tool : Name)
  /-- src/gotcha.c:447 -/
  | processing (n : Nat)
  /-- src/gotcha.c:452-453 -/
  | needsLookup (f : Name)
  /-- src/gotcha.c:456-459 -/
  | stash (f : Name)
  /-- src/gotcha.c:467-468 -/
  | needsBinding (f : Name)
  /-- src/gotcha_dl.c:95-96 -/
  | notInLibrary (f lib : Name)
  /-- src/gotcha_dl.c:100 -/
  | notAfterCaller (f : Name)
  /-- src/gotcha_dl.c:112-114 -/
  | rebind (f tool : Name)
  /-- src/gotcha_dl.c:119-123 -/
  | inner (f tool : Name)
  /-- src/gotcha_dl.c:128-129 -/
  | still (f : Name)
  /-- src/gotcha_dl.c:144-145 -/
  | searchNew
  /-- src/gotcha_dl.c:148 -/
  | updateGots
  /-- the `error_printf` of src/tool.c:171-172 -/
  | noSuchTool (tool : Name)
  deriving DecidableEq

/-- The level from which on a message is printed (src/gotcha_utils.h:56-72: `debug_level >= lvl`; an `error_printf`
from level 1 on). -/
def Note.level : Note → Nat
  | .one _ | .dlsymCalled _ _ | .markFailed _ | .noSuchTool _ => 1
  | .vdso _ _ | .searching _ | .found _ _ _ | .lookingUp _ | .wrapMain | .rewrite _ _ _ | .newEntry _ | .toHead _ _
  | .after _ | .upToDate _ | .callSites _ | .generation _ | .creating | .tableFor _ _ | .processing _ | .needsLookup _
  | .stash _ | .needsBinding _ | .searchNew | .updateGots => 2
  | _ => 3

/-- A computation together with all messages it prints, in order. -/
def Lo (α : Type) : Type := Except Fault (List Note × α)

namespace Lo

/-- Nothing printed. -/
def lift {α : Type} : Except Fault α → Lo α
  | .error f => .error f
  | .ok a => .ok ([], a)

/-- Print messages. -/
def say (ns : List Note) : Lo Unit := Except.ok (ns, ())

/-- Sequencing. -/
def andThen {α β : Type} (x : Lo α) (f : α → Lo β) : Lo β :=
  match x with
  | .error e => .error e
  | .ok (t, a) =>
    match f a with
    | .error e => .error e
    | .ok (t', b) => .ok (t ++ t', b)

instance : Monad Lo where
  pure a := Except.ok ([], a)
  bind := andThen

/-- Forget the messages. -/
def erase {α : Type} : Lo α → Except Fault α
  | .error f => .error f
  | .ok (_, a) => .ok a

/-- `binding->associated_binding_table->tool->tool_name`. -/
def toolName (s : State) (b : BId) : Name :=
  match s.binds[b]? with
  | none => []
  | some x => match s.tools.store[x.tool]? with
    | none => []
    | some t => t.name

/-- `binding->user_binding->name`. -/
def funName (s : State) (b : BId) : Name :=
  match s.binds[b]? with
  | none => []
  | some x => x.user.name

/-- src/gotcha.c:47-53 `setInternalBindingAddressPointer`. -/
def setInternal (s : State) (h : HAddr) (v : Option Addr) : Lo State := do
  let s' ← lift (s.setInternal h v)
  match s.handles h with
  | none => pure s'
  | some b =>
    say [.point b v]
    pure s'

/-- src/gotcha.c:72-75: the GNU hash table. -/
def tryGnu (l : Lib) (d : Elf.DynInfo) (f : Name) : Lo (Option (BitVec 32)) :=
  if d.gnuHash ≠ 0 then do
    say [.checkGnu f (libName l.name)]
    lift (Elf.lookupGnu l.img d f)
  else pure none

/-- src/gotcha.c:77-80: the ELF hash table, unless the GNU one has given a result. -/
def tryElf (l : Lib) (d : Elf.DynInfo) (f : Name) (r : Option (BitVec 32)) : Lo (Option (BitVec 32)) :=
  if d.elfHash ≠ 0 ∧ r = none then do
    say [.checkElf f (libName l.name)]
    lift (Elf.lookupElf l.img d f)
  else pure r

/-- src/gotcha.c:81-96: what was found. -/
def judge (l : Lib) (d : Elf.DynInfo) (f : Name) : Option (BitVec 32) → Lo (Option Addr)
  | none => do
    say [.notIn f (libName l.name)]
    pure none
  | some i =>
    match l.img.sym (Elf.at' d.symtab 24 i.toNat) with
    | none => lift (.error .outOfBounds)
    | some y =>
      if y.size > 0 then do
        say [.found f (libName l.name) (y.value + l.addr)]
        pure (some (y.value + l.addr))
      else do
        say [.hidden f (libName l.name)]
        pure none

/-- src/gotcha.c:64-96: `lookup_exported_symbol` with the dynamic section. -/
def lookIn (l : Lib) (f : Name) : Option Elf.DynInfo → Lo (Option Addr)
  | none => pure none
  | some d =>
    if d.gnuHash = 0 ∧ d.elfHash = 0 then do
      say [.noSymbols (libName l.name)]
      pure none
    else do
      let r ← tryGnu l d f
      let r ← tryElf l d f r
      judge l d f r

/-- src/gotcha.c:55-96 `lookup_exported_symbol` after the vdso test. -/
def exported (l : Lib) (f : Name) : Lo (Option Addr) := do
  say [.searching (libName l.name)]
  let d ← lift (Elf.initDynamic l.img)
  lookIn l f d

/-- src/gotcha.c:55-96 `lookup_exported_symbol`. -/
def lookupExported (env : Env) (s : State) (f : Name) (l : Lib) : Lo (State × Option Addr) :=
  match s.isVdso env l with
  | (s, true) => do
    say [.vdso l.addr (libName l.name)]
    pure (s, none)
  | (s, false) => do
    let r ← exported l f
    pure (s, r)

/-- `get_library`, then `add_library` when absent (src/gotcha.c:105-109; with `upd`, 364-368). -/
def ensureLib (upd : Bool) (s : State) (l : Lib) : Lo (State × Nat) := do
  match ← lift (s.libTab.lookup (linkMapHash l) (linkMapEq l.lm)) with
  | some r => pure (s, r)
  | none =>
    say [.newLib upd (libName l.name)]
    let t ← lift (s.libTab.addto l.lm s.libs.length (linkMapHash l))
    pure ({ s with libTab := t, libs := s.libs ++ [⟨0, false, l.lm⟩] }, s.libs.length)

/-- src/gotcha.c:104-116: the loop of `prepare_symbol`. -/
def prepareLoop (env : Env) (f : Name) (h : HAddr) : List Lib → State → Lo (State × Bool)
  | [], s => pure (s, false)
  | l :: ls, s => do
    let (s, _) ← ensureLib false s l
    let (s, r) ← lookupExported env s f l
    match r with
    | some a =>
      let s ← setInternal s h (some a)
      pure (s, true)
    | none => prepareLoop env f h ls s

/-- src/gotcha.c:98-119 `prepare_symbol`. -/
def prepareSymbol (env : Env) (s : State) (b : BId) : Lo (State × Bool) := do
  let x ← lift (s.bind b)
  say [.lookingUp x.user.name]
  let (s, ok) ← prepareLoop env x.user.name x.user.handle s.linkMap s
  if ok then pure (s, true)
  else
    say [.one (.symbol x.user.name)]
    pure (s, false)

/-- src/gotcha.c:121-130 `insert_at_head`. -/
def insertAtHead (s : State) (b head : BId) : Lo State := do
  let xb ← lift (s.bind b)
  let xh ← lift (s.bind head)
  let s := { s with binds := s.binds.modify b (fun x => { x with next := some head }) }
  let s ← setInternal s xb.user.handle (some xh.user.wrapper)
  let (t, _) ← lift (s.funTab.removefrom (strhash xb.user.name) (fun k => k = xb.user.name))
  let t ← lift (t.addto xb.user.name b (strhash xb.user.name))
  pure { s with funTab := t }

/-- src/gotcha.c:132-140 `insert_after_pos`. -/
def insertAfter (s : State) (b pos : BId) : Lo State := do
  let xb ← lift (s.bind b)
  let xp ← lift (s.bind pos)
  let s ← setInternal s xb.user.handle xp.wrappee
  let s ← setInternal s xp.user.handle (some xb.user.wrapper)
  let xp ← lift (s.bind pos)
  let s := { s with binds := s.binds.modify b (fun x => { x with next := xp.next }) }
  pure { s with binds := s.binds.modify pos (fun x => { x with next := some b }) }

/-- src/gotcha.c:184-202: the loop of `rewrite_wrapper_orders`. -/
def findPos (s : State) (p : Int) (w : Addr) : Nat → BId → Lo (Option BId)
  | 0, _ => lift (.error .diverge)
  | fuel + 1, cur => do
    let x ← lift (s.bind cur)
    match x.next with
    | none => pure (some cur)
    | some n =>
      let np ← lift (s.bindPriority n)
      say [.compare p (toolName s n) np]
      if np < p then pure (some cur)
      else if x.user.wrapper = w then
        say [.already]
        pure none
      else findPos s p w fuel n

/-- src/gotcha.c:158-207: `rewrite_wrapper_orders` after the block for "main". -/
def rewriteRest (s : State) (b : BId) (xb : IBinding) (p : Int) : Lo (State × RWO) := do
  say [.rewrite xb.user.name (toolName s b) p]
  match ← lift (nameLookup s.funTab xb.user.name) with
  | none =>
    say [.newEntry xb.user.name]
    let t ← lift (s.funTab.addto xb.user.name b (strhash xb.user.name))
    pure ({ s with funTab := t }, ⟨true, true⟩)
  | some head =>
    let hp ← lift (s.bindPriority head)
    if hp < p then
      say [.toHead p hp]
      let s ← insertAtHead s b head
      pure (s, ⟨false, true⟩)
    else
      match ← findPos s p xb.user.wrapper (s.binds.length + 1) head with
      | none => pure (s, ⟨false, false⟩)
      | some pos =>
        say [.after (toolName s pos)]
        let s ← insertAfter s b pos
        pure (s, ⟨false, false⟩)

/-- src/gotcha.c:149-156. -/
def atMain (onMain : State → Lo State) (xb : IBinding) (s : State) : Lo State :=
  if xb.user.name = nm "main" then onMain s else pure s

/-- src/gotcha.c:145-207 `rewrite_wrapper_orders`. -/
def rewriteOrders (onMain : State → Lo State) (s : State) (b : BId) : Lo (State × RWO) := do
  let xb ← lift (s.bind b)
  let p ← lift (s.bindPriority b)
  let s ← atMain onMain xb s
  rewriteRest s b xb p

/-- src/gotcha.c:264-360 `mark_got_writable`: the mprotect calls, as `Got.ranges`, with the place they come from. -/
def ranges (page : BitVec 64) (got : Addr) (relSize : BitVec 32) (relro : Option (Addr × Addr)) :
    List (MarkKind × Addr × BitVec 64) :=
  let pltSize := Got.roundUp (relSize.setWidth 64) page
  let pltAddr := Got.boundaryBefore got page
  match relro with
  | none => [(.pltOnly, pltAddr, pltSize)]
  | some (start, stop) =>
    let gotEnd := Got.roundUp stop page
    let gotAddr := Got.boundaryBefore start page
    let gotSize := gotEnd - gotAddr
    if gotAddr = pltAddr + pltSize then [(.gotAfterPlt, pltAddr, pltSize + gotSize)]
    else if pltAddr = gotAddr + gotSize then [(.pltAfterGot, gotAddr, pltSize + gotSize)]
    else [(.gotOnly, gotAddr, gotSize), (.pltOnly, pltAddr, pltSize)]

/-- The mprotect calls of `mark_got_writable`, as `Got.markCalls`. -/
def markCalls (page : BitVec 64) (objs : List Lib) (lib : Lib) :
    Except Fault (List (MarkKind × Addr × BitVec 64)) :=
  match Elf.initDynamic lib.img with
  | .error f => .error f
  | .ok none => .ok []
  | .ok (some d) =>
    if d.got = 0 then .ok []
    else if page = 0 then .error .divZero
    else .ok (ranges page d.got d.relSize (Got.relroBoundary objs lib))

/-- The mprotect calls one after the other: announced before, an error reported after. -/
def unprotect (env : Env) (lib : Name) : List (MarkKind × Addr × BitVec 64) → State → Lo State
  | [], s => pure s
  | (k, r) :: rs, s => do
    say [.mark k lib r]
    if env.mprotect r then unprotect env lib rs (s.unprotect env r)
    else
      say [.markFailed k]
      unprotect env lib rs (s.unprotect env r)

/-- src/gotcha.c:264-360 `mark_got_writable`. -/
def markGotWritable (env : Env) (s : State) (l : Lib) : Lo State := do
  let rs ← lift (markCalls (BitVec.ofNat 64 env.page) s.linkMap l)
  unprotect env (libName l.name) rs s

/-- src/gotcha.c:209-224 `update_lib_bindings` for every visited relocation. -/
def writeRelocs (t : HTable Name BId) (l : Lib) : List (Addr × Name) → State → Lo State
  | [], s => pure s
  | (off, f) :: rest, s => do
    match ← lift (nameLookup t f) with
    | none => writeRelocs t l rest s
    | some b =>
      let x ← lift (s.bind b)
      let s ← lift (s.write (l.addr + off) x.user.wrapper)
      say [.remap f (l.addr + off) (libName l.name) x.user.wrapper]
      writeRelocs t l rest s

/-- src/gotcha.c:383-386: make the GOT writable, once for every record. -/
def ensureWritable (env : Env) (s : State) (l : Lib) (r : Nat) (done : Bool) : Lo State :=
  if done then pure s
  else do
    let s ← markGotWritable env s l
    pure { s with libs := s.libs.modify r (fun x => { x with writable := true }) }

/-- src/gotcha.c:388-389: rewrite, and record the generation. -/
def rewriteGot (t : HTable Name BId) (s : State) (l : Lib) (r : Nat) :
    Option (List (Addr × Name)) → Lo State
  | none => pure s
  | some rl => do
    let s ← writeRelocs t l rl s
    pure { s with libs := s.libs.modify r (fun x => { x with gen := s.gen }) }

/-- src/gotcha.c:370-391: `update_library_got` with the answer of the filter. -/
def updateRec (env : Env) (t : HTable Name BId) (s : State) (l : Lib) (r : Nat) : Bool → Lo State
  | false => do
    say [.skip (libName l.name)]
    pure s
  | true =>
    match s.libs[r]? with
    | none => lift (.error .outOfBounds)
    | some rec =>
      if rec.gen = s.gen then do
        say [.upToDate (libName l.name)]
        pure s
      else do
        let s ← ensureWritable env s l r rec.writable
        let rl ← lift (Elf.relocs l.img)
        rewriteGot t s l r rl

/-- src/gotcha.c:362-391 `update_library_got`. -/
def updateLib (env : Env) (t : HTable Name BId) (s : State) (l : Lib) (hasNext : Bool) : Lo State := do
  let (s, r) ← ensureLib true s l
  let ok ← lift (s.filter.accepts l hasNext)
  updateRec env t s l r ok

/-- src/gotcha.c:393-400 `update_all_library_gots`, over the rest of the link map. -/
def updateLibs (env : Env) (t : HTable Name BId) : List Lib → State → Lo State
  | [], s => pure s
  | l :: ls, s => do
    let s ← updateLib env t s l (!ls.isEmpty)
    updateLibs env t ls s

/-- src/gotcha.c:393-400 `update_all_library_gots`. -/
def updateAll (env : Env) (t : HTable Name BId) (s : State) : Lo State := do
  say [.callSites t.count]
  updateLibs env t s.linkMap s

/-- src/gotcha.c:426-428, 496-499 with src/tool.c:64-83: find the tool or create it. -/
def getOrCreate (ts : Tools) (name : Name) : Lo (Tools × Nat) := do
  match ← lift (ts.getTool name) with
  | some i => pure (ts, i)
  | none =>
    say [.one (.noTool name)]
    let r ← lift (ts.create name)
    say [.one (.newTool name)]
    pure r

/-- src/gotcha.c:451-465: look the function up when it is new. -/
def needLookup (env : Env) (xb : IBinding) (b : BId) (s : State) (nf : Nat) : Bool → Lo (State × Nat)
  | false => pure (s, nf)
  | true => do
    say [.needsLookup xb.user.name]
    let (s, ok) ← prepareSymbol env s b
    if ok then pure (s, nf)
    else do
      say [.stash xb.user.name]
      let t ← lift (s.notFound.addto xb.user.name b (strhash xb.user.name))
      pure ({ s with notFound := t }, nf + 1)

/-- src/gotcha.c:466-476: collect the functions to rewrite. -/
def needBinding (env : Env) (xb : IBinding) (b : BId) (n : Nat) (nb : Option (HTable Name BId)) :
    Bool → Lo (Option (HTable Name BId))
  | false => pure nb
  | true => do
    say [.needsBinding xb.user.name]
    lift (addNew env n nb xb.user.name b)

/-- One round of the loop src/gotcha.c:448-477. -/
def processOne (env : Env) (onMain : State → Lo State) (n : Nat) (b : BId) (s : State)
    (nb : Option (HTable Name BId)) (nf : Nat) : Lo (State × Option (HTable Name BId) × Nat) := do
  let xb ← lift (s.bind b)
  let (s, r) ← rewriteOrders onMain s b
  let (s, nf) ← needLookup env xb b s nf r.lookup
  let nb ← needBinding env xb b n nb r.binding
  pure (s, nb, nf)

/-- src/gotcha.c:448-477: the loop over the bindings of a table. -/
def processBindings (env : Env) (onMain : State → Lo State) (n : Nat) :
    List BId → State → Option (HTable Name BId) → Nat →
    Lo (State × Option (HTable Name BId) × Nat)
  | [], s, nb, nf => pure (s, nb, nf)
  | b :: bs, s, nb, nf => do
    let (s, nb, nf) ← processOne env onMain n b s nb nf
    processBindings env onMain n bs s nb nf

/-- src/gotcha.c:411-424: the messages at the beginning of `gotcha_wrap`. -/
def opening (table : List UBinding) (tool : Option Name) : List Note :=
  .one (.wrapCalled tool table.length) :: (table.mapIdx fun i u => .willMap i u.name u.wrapper) ++
    .initNull table.length :: table.map fun u => .clear u.handle

/-- src/gotcha.c:479-482. -/
def rewriteAll (env : Env) (s : State) : Option (HTable Name BId) → Lo State
  | none => pure s
  | some t => updateAll env t s

/-- src/gotcha.c:484-490. -/
def closing (nf n : Nat) (s : State) : Lo (State × RetCode) :=
  if nf > 0 then do
    say [.one (.couldNot nf n)]
    pure (s, .functionNotFound)
  else do
    say [.one .wrapDone]
    pure (s, .success)

/-- src/gotcha.c:411-491: `gotcha_wrap` after `gotcha_init`. -/
def wrapCore (env : Env) (onMain : State → Lo State) (table : List UBinding)
    (tool : Option Name) (s : State) : Lo (State × RetCode) := do
  say (opening table tool)
  let s := table.foldl (fun s u => s.setHandle u.handle none) s
  let (ts, tid) ← getOrCreate s.tools (tool.getD (nm "[UNSPECIFIED]"))
  let s := { s with tools := ts, gen := s.gen + 1 }
  say [.generation s.gen, .creating]
  let base := s.binds.length
  let s := addBindings tid table s
  say [.tableFor table.length (tool.getD (nm "[UNSPECIFIED]")), .processing table.length]
  let (s, nb, nf) ←
    processBindings env onMain table.length (List.range' base table.length) s none 0
  let s ← rewriteAll env s nb
  closing nf table.length s

/-- src/gotcha.c:149-156: what `rewrite_wrapper_orders` does for the name "main". -/
def onMainReal (env : Env) (s : State) : Lo State :=
  if s.mainWrapped then pure s
  else do
    say [.wrapMain]
    let s := { s with mainWrapped := true }
    let (s, _) ← wrapCore env (fun s => pure s) (libcMainTable env) (some (nm "gotcha")) s
    let (s, _) ← wrapCore env (fun s => pure s) (mainTable env) (some (nm "gotcha")) s
    pure s

/-- src/gotcha_utils.c:107-116 `gotcha_init`. -/
def gotchaInit (env : Env) (s : State) : Lo State :=
  if s.inited then pure s
  else do
    let lt ← lift (HTable.create env.page 128)
    let ft ← lift (HTable.create env.page 4096)
    let nt ← lift (HTable.create env.page 128)
    let s := { s with inited := true, libTab := lt, funTab := ft, notFound := nt }
    let (s, _) ← wrapCore env (onMainReal env) (dlTable env) (some (nm "gotcha")) s
    pure s

/-- src/gotcha.c:402-491 `gotcha_wrap`. -/
def gotchaWrap (env : Env) (table : List UBinding) (tool : Option Name) (s : State) :
    Lo (State × RetCode) := do
  let s ← gotchaInit env s
  wrapCore env (onMainReal env) table tool s

/-- src/gotcha.c:493-507 `gotcha_configure_int` with key `GOTCHA_PRIORITY`, then the body of
`gotcha_set_priority` (:519-526), as `Tools.setPriority`. -/
def setPriority (ts : Tools) (name : Name) (v : Int) : Lo Tools := do
  let (ts, i) ← getOrCreate ts name
  let ts := { ts with store := ts.store.modify i (fun t => { t with priority := v }) }
  let (ts, j) ← getOrCreate ts name
  let ts ← lift (ts.remove j)
  lift (ts.reorder j)

/-- src/gotcha.c:509-527 `gotcha_set_priority`. -/
def gotchaSetPriority (env : Env) (tool : Name) (v : Int) (s : State) : Lo State := do
  let s ← gotchaInit env s
  say [.one (.setPriority tool v)]
  let ts ← setPriority s.tools tool v
  pure { s with tools := ts }

/-- src/gotcha.c:529-533 `gotcha_get_priority` with src/tool.c:165-193 `get_configuration_value`. -/
def gotchaGetPriority (env : Env) (tool : Name) (s : State) : Lo (State × Option Int) := do
  let s ← gotchaInit env s
  match ← lift (s.tools.getPriority tool) with
  | none =>
    say [.noSuchTool tool]
    pure (s, none)
  | some v => pure (s, some v)

/-- src/gotcha_dl.c:117-124: follow `next_binding` to the innermost binding. -/
def innermost (s : State) : Nat → BId → Lo BId
  | 0, _ => lift (.error .diverge)
  | fuel + 1, b => do
    let x ← lift (s.bind b)
    match x.next with
    | none => pure b
    | some n =>
      say [.inner (funName s n) (toolName s n)]
      innermost s fuel n

/-- src/gotcha_dl.c:107-135 `per_binding`. -/
def perBinding (env : Env) (key : Option Name) (data : Option BId) (s : State) :
    Lo (State × Bool) := do
  match key, data with
  | some k, some b =>
    say [.rebind (funName s b) (toolName s b)]
    let b ← innermost s (s.binds.length + 1) b
    let (s', ok) ← prepareSymbol env s b
    if ok then
      let (t, _) ← lift (s'.notFound.removefrom (strhash k) (fun x => x = k))
      pure ({ s' with notFound := t }, false)
    else
      say [.still (funName s b)]
      pure (s', false)
  | _, _ => lift (.error .nullDeref)

/-- `per_binding` as a callback of `foreach_hash_entry` that appends to a log. -/
def perBindingLog (env : Env) (key : Option Name) (data : Option BId) (x : State × List Note) :
    Except Fault ((State × List Note) × Bool) :=
  match perBinding env key data x.1 with
  | .error f => .error f
  | .ok (lg, (s, stop)) => .ok ((s, x.2 ++ lg), stop)

/-- src/gotcha_dl.c:137-152 `dlopen_wrapper`. -/
def dlopenWrapper (env : Env) (file : Option Name) (flags : BitVec 32) (ld : Load) (s : State) :
    Lo State := do
  let _ ← lift (s.getWrappee env.hDlopen)
  say [.one (.dlopenCalled file flags)]
  let s := s.load ld
  say [.searchNew]
  let (s, lg) ← lift (foreachEntry (fun x : State × List Note => x.1.notFound) (perBindingLog env)
    s.notFound.slots.length s.notFound.head (s, []))
  say lg
  say [.updateGots]
  updateAll env s.funTab s

/-- src/gotcha_dl.c:86-101 (loop of `gotchas_dlsym_rtld_next_lookup`): first library exporting `name`. -/
def firstExporting (env : Env) (name : Name) : List Lib → State → Lo (State × Option Lib)
  | [], s => do
    say [.notAfterCaller name]
    pure (s, none)
  | l :: ls, s => do
    let (s, r) ← lookupExported env s name l
    match r with
    | some _ => pure (s, some l)
    | none =>
      say [.notInLibrary name (libName l.name)]
      firstExporting env name ls s

/-- src/gotcha_dl.c:70-101 `gotchas_dlsym_rtld_next_lookup`. -/
def rtldNextLookup (env : Env) (name : Name) (who : Addr) (s : State) : Lo (State × Option Lib) :=
  match s.linkMap.findSome? (headerCallback s.linkMap who) with
  | none => lift (.error .exit)
  | some [] => lift (.error .nullDeref)
  | some (_ :: rest) => firstExporting env name rest s

/-- src/gotcha_dl.c:154-185 `dlsym_wrapper`. -/
def dlsymWrapper (env : Env) (real : RealDl) (h : DlHandle) (name : Name) (who : Addr)
    (s : State) : Lo (State × Addr) := do
  let _ ← lift (s.getWrappee env.hDlopen)
  let _ ← lift (s.getWrappee env.hDlsym)
  say [.dlsymCalled h name]
  let val := real.dlsym h name
  let other : Lo (State × Addr) :=
    match h with
    | .next => do
      let (s, l) ← rtldNextLookup env name who s
      match l with
      | some l => pure (s, real.dlsym (real.dlopen l.name) name)
      | none => pure (s, 0)
    | .other _ => pure (s, val)
  match ← lift (nameLookup s.funTab name) with
  | none => other
  | some b =>
    let x ← lift (s.bind b)
    if val = 0 then
      match s.handles x.user.handle with
      | none => lift (.error .nullDeref)
      | some _ => pure (s, x.user.wrapper)
    else
      let w ← lift (s.getWrappee x.user.handle)
      if w = val then pure (s, x.user.wrapper) else other

/-- One event with its messages.  The arguments of an intercepted dlopen are only printed. -/
def stepOp (env : Env) (file : Option Name) (flags : BitVec 32) : Op → State → Lo (State × Obs)
  | .wrap table tool, s => do
    let (s, c) ← gotchaWrap env table tool s
    pure (s, .ret c)
  | .setPriority tool v, s => do
    let s ← gotchaSetPriority env tool v s
    pure (s, .unit)
  | .getPriority tool, s => do
    let (s, v) ← gotchaGetPriority env tool s
    pure (s, .prio v)
  | .setFilter f, s => pure ({ s with filter := f }, .unit)
  | .dlopen ld, s =>
    if s.inited then do
      let s ← dlopenWrapper env file flags ld s
      pure (s, .unit)
    else pure (s.load ld, .unit)
  | .load ld, s => pure (s.load ld, .unit)
  | .unload dead, s => pure (s.unload dead, .unit)

/-- A history of events, with the log of each (as `Gotcha.run`).  `args` are the printed arguments of the intercepted
dlopen calls. -/
def run (env : Env) (args : Nat → Option Name × BitVec 32) : List Op → State → Except Fault (State × List (List Note))
  | [], s => .ok (s, [])
  | op :: ops, s =>
    match stepOp env (args ops.length).1 (args ops.length).2 op s with
    | .error f => .error f
    | .ok (lg, (s1, _)) =>
      match run env args ops s1 with
      | .error f => .error f
      | .ok (s2, lgs) => .ok (s2, lg :: lgs)

end Lo
end Gotcha
