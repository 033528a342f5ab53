import Verif.Model.Core
import Verif.Model.Printf
/-
The debug messages that GOTCHA prints at level 1 (`GOTCHA_DEBUG=1`): `debug_printf(1, ...)` in
`gotcha_wrap`, `gotcha_set_priority`, the intercepted dlopen and what they call.  The functions below are
those of `Model/Core` with a record of the messages, in order; that they compute the same result is
`Proof/Debug` (`Lg.erase_gotchaWrap` and others).

Simplifications: messages of the levels 2 and 3 are left out (they are in `Model/Log`), and so are the
message of `debug_init` (level 0, src/gotcha_utils.c:45), those of the dlsym wrapper and the reports of
`error_printf` (after a refused mprotect and for the priority of an unknown tool: `Model/Log`; after a
failed allocation: not modelled, allocations succeed here).
-/
namespace Gotcha

/-- The messages of level 1. -/
inductive Msg where
  /-- src/gotcha.c:411-412; `none` is a NULL tool name -/
  | wrapCalled (tool : Option Name) (n : Nat)
  /-- src/tool.c:65 -/
  | noTool (tool : Name)
  /-- src/tool.c:81 -/
  | newTool (tool : Name)
  /-- src/gotcha.c:117 -/
  | symbol (f : Name)
  /-- src/gotcha.c:485-486 -/
  | couldNot (k n : Nat)
  /-- src/gotcha.c:489 -/
  | wrapDone
  /-- src/gotcha.c:512-513 -/
  | setPriority (tool : Name) (v : Int)
  /-- src/gotcha_dl.c:140-141; `none` is a NULL file name -/
  | dlopenCalled (file : Option Name) (flags : BitVec 32)
  deriving DecidableEq

/-- The file and line of the message, as SHORT_FILE__ and __LINE__ give them (src/gotcha_utils.h:54-63;
for a call that extends over several lines, the line of its first; compilers may use the last). -/
def Msg.place : Msg → Name × Nat
  | .wrapCalled _ _ => (nm "gotcha.c", 411)
  | .noTool _ => (nm "tool.c", 65)
  | .newTool _ => (nm "tool.c", 81)
  | .symbol _ => (nm "gotcha.c", 117)
  | .couldNot _ _ => (nm "gotcha.c", 485)
  | .wrapDone => (nm "gotcha.c", 489)
  | .setPriority _ _ => (nm "gotcha.c", 512)
  | .dlopenCalled _ _ => (nm "gotcha_dl.c", 140)

/-- The format string of the message. -/
def Msg.fmt : Msg → Name
  | .wrapCalled _ _ => nm "User called gotcha_wrap for tool %s with %d bindings\n"
  | .noTool _ => nm "Found no existing tool with name %s\n"
  | .newTool _ => nm "Created new tool %s\n"
  | .symbol _ => nm "Symbol %s was found in program\n"
  | .couldNot _ _ => nm "Could not find bindings for %d / %d functions\n"
  | .wrapDone => nm "Gotcha wrap completed successfully\n"
  | .setPriority _ _ => nm "User called gotcha_set_priority(%s, %d)\n"
  | .dlopenCalled _ _ => nm "User called dlopen(%s, 0x%x)\n"

/-- A `char *` argument. -/
def strArg : Option Name → Printf.Arg
  | none => .null
  | some s => .str s

/-- The arguments of the message.  An `int` is passed in the lower half of a register. -/
def Msg.args : Msg → List Printf.Arg
  | .wrapCalled tool n => [strArg tool, .int (BitVec.ofNat 64 n)]
  | .noTool t => [.str t]
  | .newTool t => [.str t]
  | .symbol f => [.str f]
  | .couldNot k n => [.int (BitVec.ofNat 64 k), .int (BitVec.ofNat 64 n)]
  | .wrapDone => []
  | .setPriority t v => [.str t, .int (BitVec.ofInt 64 v)]
  | .dlopenCalled file flags => [strArg file, .int (flags.setWidth 64)]

/-- src/gotcha_utils.h:56-63 `debug_printf` in the build without libc (src/libc_wrappers.h:85-86): what
is written to descriptor 2.  `tid` and `pid` are what gettid and getpid return. -/
def Msg.print (junk : Name → List UInt8) (buf : List UInt8) (tid pid : BitVec 32) (m : Msg) :
    Except Fault (List UInt8) :=
  match Printf.printf junk buf (nm "[%d/%d][%s:%u] - " ++ m.fmt)
      ([.int (tid.setWidth 64), .int (pid.setWidth 64), .str m.place.1,
        .int (BitVec.ofNat 64 m.place.2)] ++ m.args) with
  | .error f => .error f
  | .ok (_, out) => .ok out

/-- All messages of a log, one after the other. -/
def printAll (junk : Name → List UInt8) (buf : List UInt8) (tid pid : BitVec 32) :
    List Msg → Except Fault (List UInt8)
  | [] => .ok []
  | m :: ms =>
    match m.print junk buf tid pid with
    | .error f => .error f
    | .ok out =>
      match printAll junk buf tid pid ms with
      | .error f => .error f
      | .ok out' => .ok (out ++ out')

/-- A computation together with the messages it prints, in order. -/
def Lg (α : Type) : Type := Except Fault (List Msg × α)

namespace Lg

/-- Nothing printed. -/
def lift {α : Type} : Except Fault α → Lg α
  | .error f => .error f
  | .ok a => .ok ([], a)

/-- Print messages. -/
def say (ms : List Msg) : Lg Unit := Except.ok (ms, ())

/-- Sequencing. -/
def andThen {α β : Type} (x : Lg α) (f : α → Lg β) : Lg β :=
  match x with
  | .error e => .error e
  | .ok (t, a) =>
    match f a with
    | .error e => .error e
    | .ok (t', b) => .ok (t ++ t', b)

instance : Monad Lg where
  pure a := Except.ok ([], a)
  bind := andThen

/-- Forget the messages. -/
def erase {α : Type} : Lg α → Except Fault α
  | .error f => .error f
  | .ok (_, a) => .ok a

/-- src/gotcha.c:426-428, 496-499 with src/tool.c:64-83: find the tool or create it. -/
def getOrCreate (ts : Tools) (name : Name) : Lg (Tools × Nat) := do
  match ← lift (ts.getTool name) with
  | some i => pure (ts, i)
  | none =>
    say [.noTool name]
    let r ← lift (ts.create name)
    say [.newTool name]
    pure r

/-- src/gotcha.c:98-119 `prepare_symbol`. -/
def prepareSymbol (env : Env) (s : State) (b : BId) : Lg (State × Bool) := do
  let xb ← lift (s.bind b)
  let (s, ok) ← lift (s.prepareSymbol env b)
  if ok then pure (s, true)
  else
    say [.symbol xb.user.name]
    pure (s, false)

/-- src/gotcha.c:164-207: `rewrite_wrapper_orders` after the block for "main". -/
def rewriteRest (s : State) (b : BId) (xb : IBinding) (p : Int) : Except Fault (State × RWO) := do
  match ← nameLookup s.funTab xb.user.name with
  | none =>
    let t ← s.funTab.addto xb.user.name b (strhash xb.user.name)
    .ok ({ s with funTab := t }, ⟨true, true⟩)
  | some head =>
    let hp ← s.bindPriority head
    if hp < p then
      let s ← s.insertAtHead b head
      .ok (s, ⟨false, true⟩)
    else
      match ← findPos s p xb.user.wrapper (s.binds.length + 1) head with
      | none => .ok (s, ⟨false, false⟩)
      | some pos =>
        let s ← s.insertAfter b pos
        .ok (s, ⟨false, false⟩)

/-- src/gotcha.c:145-207 `rewrite_wrapper_orders`. -/
def rewriteOrders (onMain : State → Lg State) (s : State) (b : BId) : Lg (State × RWO) := do
  let xb ← lift (s.bind b)
  let p ← lift (s.bindPriority b)
  let s ← if xb.user.name = nm "main" then onMain s else pure s
  lift (rewriteRest s b xb p)

/-- One round of the loop src/gotcha.c:448-477. -/
def processOne (env : Env) (onMain : State → Lg State) (n : Nat) (b : BId) (s : State)
    (nb : Option (HTable Name BId)) (nf : Nat) : Lg (State × Option (HTable Name BId) × Nat) := do
  let xb ← lift (s.bind b)
  let (s, r) ← rewriteOrders onMain s b
  let (s, nf) ←
    if r.lookup then do
      let (s, ok) ← prepareSymbol env s b
      if ok then pure (s, nf)
      else do
        let t ← lift (s.notFound.addto xb.user.name b (strhash xb.user.name))
        pure ({ s with notFound := t }, nf + 1)
    else pure (s, nf)
  let nb ← lift (if r.binding then addNew env n nb xb.user.name b else .ok nb)
  pure (s, nb, nf)

/-- src/gotcha.c:448-477: the loop over the bindings of a table. -/
def processBindings (env : Env) (onMain : State → Lg State) (n : Nat) :
    List BId → State → Option (HTable Name BId) → Nat →
    Lg (State × Option (HTable Name BId) × Nat)
  | [], s, nb, nf => pure (s, nb, nf)
  | b :: bs, s, nb, nf => do
    let (s, nb, nf) ← processOne env onMain n b s nb nf
    processBindings env onMain n bs s nb nf

/-- src/gotcha.c:411-491: `gotcha_wrap` after `gotcha_init`. -/
def wrapCore (env : Env) (onMain : State → Lg State) (table : List UBinding)
    (tool : Option Name) (s : State) : Lg (State × RetCode) := do
  say [.wrapCalled tool table.length]
  let s := table.foldl (fun s u => s.setHandle u.handle none) s
  let (ts, tid) ← getOrCreate s.tools (tool.getD (nm "[UNSPECIFIED]"))
  let s := { s with tools := ts, gen := s.gen + 1 }
  let base := s.binds.length
  let s := addBindings tid table s
  let (s, nb, nf) ←
    processBindings env onMain table.length (List.range' base table.length) s none 0
  let s ← lift (match nb with
    | none => Except.ok s
    | some t => s.updateAll env t)
  if nf > 0 then
    say [.couldNot nf table.length]
    pure (s, .functionNotFound)
  else
    say [.wrapDone]
    pure (s, .success)

/-- src/gotcha.c:149-156: what `rewrite_wrapper_orders` does for the name "main". -/
def onMainReal (env : Env) (s : State) : Lg State :=
  if s.mainWrapped then pure s
  else do
    let s := { s with mainWrapped := true }
    let (s, _) ← wrapCore env (fun s => pure s) (libcMainTable env) (some (nm "gotcha")) s
    let (s, _) ← wrapCore env (fun s => pure s) (mainTable env) (some (nm "gotcha")) s
    pure s

/-- src/gotcha_utils.c:107-116 `gotcha_init`. -/
def gotchaInit (env : Env) (s : State) : Lg State :=
  if s.inited then pure s
  else do
    let lt ← lift (HTable.create env.page 128)
    let ft ← lift (HTable.create env.page 4096)
    let nt ← lift (HTable.create env.page 128)
    let s := { s with inited := true, libTab := lt, funTab := ft, notFound := nt }
    let (s, _) ← wrapCore env (onMainReal env) (dlTable env) (some (nm "gotcha")) s
    pure s

/-- src/gotcha.c:402-491 `gotcha_wrap`. -/
def gotchaWrap (env : Env) (table : List UBinding) (tool : Option Name) (s : State) :
    Lg (State × RetCode) := do
  let s ← gotchaInit env s
  wrapCore env (onMainReal env) table tool s

/-- src/gotcha.c:493-507 `gotcha_configure_int` with key `GOTCHA_PRIORITY`, then the body of
`gotcha_set_priority` (:519-526), as `Tools.setPriority`. -/
def setPriority (ts : Tools) (name : Name) (v : Int) : Lg Tools := do
  let (ts, i) ← getOrCreate ts name
  let ts := { ts with store := ts.store.modify i (fun t => { t with priority := v }) }
  let (ts, j) ← getOrCreate ts name
  let ts ← lift (ts.remove j)
  lift (ts.reorder j)

/-- src/gotcha.c:509-527 `gotcha_set_priority`. -/
def gotchaSetPriority (env : Env) (tool : Name) (v : Int) (s : State) : Lg State := do
  let s ← gotchaInit env s
  say [.setPriority tool v]
  let ts ← setPriority s.tools tool v
  pure { s with tools := ts }

/-- src/gotcha_dl.c:107-135 `per_binding`. -/
def perBinding (env : Env) (key : Option Name) (data : Option BId) (s : State) :
    Lg (State × Bool) := do
  match key, data with
  | some k, some b =>
    let b ← lift (innermost s (s.binds.length + 1) b)
    let (s, ok) ← prepareSymbol env s b
    if ok then
      let (t, _) ← lift (s.notFound.removefrom (strhash k) (fun x => x = k))
      pure ({ s with notFound := t }, false)
    else pure (s, false)
  | _, _ => lift (.error .nullDeref)

/-- `per_binding` as a callback of `foreach_hash_entry` that appends to a log. -/
def perBindingLog (env : Env) (key : Option Name) (data : Option BId) (x : State × List Msg) :
    Except Fault ((State × List Msg) × Bool) :=
  match perBinding env key data x.1 with
  | .error f => .error f
  | .ok (lg, (s, stop)) => .ok ((s, x.2 ++ lg), stop)

/-- src/gotcha_dl.c:137-152 `dlopen_wrapper`. -/
def dlopenWrapper (env : Env) (file : Option Name) (flags : BitVec 32) (ld : Load) (s : State) :
    Lg State := do
  let _ ← lift (s.getWrappee env.hDlopen)
  say [.dlopenCalled file flags]
  let s := s.load ld
  let (s, lg) ← lift (foreachEntry (fun x : State × List Msg => x.1.notFound) (perBindingLog env)
    s.notFound.slots.length s.notFound.head (s, []))
  say lg
  lift (s.updateAll env s.funTab)

end Lg
end Gotcha
