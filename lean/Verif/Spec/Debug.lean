import Verif.Model.Debug
import Verif.Spec.Stack
import Verif.Spec.Printf
/-
What GOTCHA reports at debug level 1, in terms of the abstract state only.
-/
namespace Gotcha.Spec

/-- A tool that is named for the first time is reported twice: as not found, then as created. -/
def toolLog (A : Abs) (t : Name) : List Msg :=
  match A.prio t with
  | none => [.noTool t, .newTool t]
  | some _ => []

/-- The bindings of a table, in order.  `oml` is what is reported in the block for "main", which comes
before the binding itself. -/
def pushAllLog (oml : Abs → List Msg) (om : Abs → Abs) (tool : Name) :
    List UBinding → Abs → List Msg
  | [], _ => []
  | u :: us, A =>
    let A1 := if u.name = nm "main" then om A else A
    let r := A1.push tool (A.prioOf tool) u
    (if u.name = nm "main" then oml A else []) ++
      ((if r.2 then [Msg.symbol u.name] else []) ++ pushAllLog oml om tool us r.1)

/-- The last message of gotcha_wrap: `k` of `n` functions were not found. -/
def doneMsg (k n : Nat) : Msg := if k > 0 then .couldNot k n else .wrapDone

/-- gotcha_wrap once GOTCHA is initialised. -/
def wrapLog (oml : Abs → List Msg) (om : Abs → Abs) (tbl : List UBinding) (tool : Option Name)
    (A : Abs) : List Msg :=
  let t := tool.getD (nm "[UNSPECIFIED]")
  [.wrapCalled tool tbl.length] ++ (toolLog A t ++
    (pushAllLog oml om t tbl (A.touch t) ++
      [doneMsg (Abs.pushAll om t tbl (A.touch t)).2 tbl.length]))

/-- The block for "main": two calls of gotcha_wrap. -/
def onMainLog (env : Env) (A : Abs) : List Msg :=
  if A.mainWrapped then []
  else
    let A := { A with mainWrapped := true }
    wrapLog (fun _ => []) id (libcMainTable env) (some (nm "gotcha")) A ++
      wrapLog (fun _ => []) id (mainTable env) (some (nm "gotcha"))
        (Abs.wrap id (libcMainTable env) (some (nm "gotcha")) A).1

/-- The first use of GOTCHA: one call of gotcha_wrap. -/
def initLog (env : Env) (A : Abs) : List Msg :=
  if A.inited then []
  else wrapLog (onMainLog env) (Abs.onMain env) (dlTable env) (some (nm "gotcha"))
    { A with inited := true, vdso := env.vdsoOf A.libs }

/-- A call of gotcha_wrap. -/
def callLog (env : Env) (tbl : List UBinding) (tool : Option Name) (A : Abs) : List Msg :=
  initLog env A ++ wrapLog (onMainLog env) (Abs.onMain env) tbl tool (A.init env)

/-- A call of gotcha_set_priority. -/
def prioLog (env : Env) (tool : Name) (v : Int) (A : Abs) : List Msg :=
  initLog env A ++ (.setPriority tool v :: toolLog (A.init env) tool)

/-! ### For the user -/

/-- The functions of a table that are registered for the first time and not found, in order.  `reg` says
what is registered already, `found` what some loaded object exports. -/
def missing (reg found : Name → Bool) : List UBinding → List Name
  | [] => []
  | u :: us =>
    (if reg u.name || found u.name then [] else [u.name]) ++
      missing (fun f => reg f || decide (f = u.name)) found us

/-- What gotcha_wrap reports for a table without "main", once GOTCHA is initialised: the call, a new
tool, the functions that are `missing`, and the outcome. -/
def wrapReport (new : Bool) (reg found : Name → Bool) (tbl : List UBinding) (tool : Option Name) :
    List Msg :=
  let t := tool.getD (nm "[UNSPECIFIED]")
  let ms := missing reg found tbl
  .wrapCalled tool tbl.length :: ((if new then [.noTool t, .newTool t] else []) ++
    (ms.map Msg.symbol ++ [if ms = [] then .wrapDone else .couldNot ms.length tbl.length]))

end Gotcha.Spec

namespace Gotcha
open Spec.Printf (integer numeral)

/-- The text of a message. -/
def Msg.says : Msg → Name
  | .wrapCalled tool n => nm "User called gotcha_wrap for tool " ++ (tool.getD [] ++
      (nm " with " ++ (integer n ++ nm " bindings\n")))
  | .noTool t => nm "Found no existing tool with name " ++ (t ++ nm "\n")
  | .newTool t => nm "Created new tool " ++ (t ++ nm "\n")
  | .symbol f => nm "Symbol " ++ (f ++ nm " was found in program\n")
  | .couldNot k n => nm "Could not find bindings for " ++ (integer k ++ (nm " / " ++
      (integer n ++ nm " functions\n")))
  | .wrapDone => nm "Gotcha wrap completed successfully\n"
  | .setPriority t v => nm "User called gotcha_set_priority(" ++ (t ++ (nm ", " ++
      (integer v ++ nm ")\n")))
  | .dlopenCalled file flags => nm "User called dlopen(" ++ (file.getD [] ++ (nm ", 0x" ++
      (numeral false 16 flags.toNat ++ nm ")\n")))

/-- The line printed for a message: thread, process and place in the source, then the text. -/
def Msg.line (tid pid : BitVec 32) (m : Msg) : Name :=
  nm "[" ++ (integer tid.toInt ++ (nm "/" ++ (integer pid.toInt ++ (nm "][" ++ (m.place.1 ++
    (nm ":" ++ (numeral false 10 m.place.2 ++ (nm "] - " ++ m.says))))))))

/-- Is a string argument NULL? -/
def Msg.hasNull : Msg → Bool
  | .wrapCalled tool _ => tool.isNone
  | .dlopenCalled file _ => file.isNone
  | _ => false

/-- The numbers fit an `int`. -/
def Msg.Fits : Msg → Prop
  | .wrapCalled _ n => n < 2 ^ 31
  | .couldNot k n => k < 2 ^ 31 ∧ n < 2 ^ 31
  | .setPriority _ v => -2 ^ 31 ≤ v ∧ v < 2 ^ 31
  | _ => True

end Gotcha
