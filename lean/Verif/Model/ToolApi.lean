import Verif.Model.Core
/-
The rest of src/tool.c: configuration keys, the lists of binding tables, and the removal of tools as
test/unit/gotcha_unit_tests.c does it.

Not modelled: the hash table `binding_hash` of a table and `child_tools`, which nothing reads; failure
of `gotcha_malloc` (Model/Oom).
-/
namespace Gotcha
namespace Tools

/-- The values of `enum gotcha_error_t` that the configuration functions return. -/
inductive CfgCode
  | success
  | invalidTool
  | internal
  deriving DecidableEq, Repr

/-- src/tool.h:27 `GOTCHA_PRIORITY`, the only key there is; an `enum` parameter can be given any value,
as test/unit/gotcha_unit_tests.c:106 does. -/
def keyPriority : Int := 0

/-- src/gotcha.c:493-507 `gotcha_configure_int` for any key. -/
def configureInt (ts : Tools) (name : Name) (key v : Int) : Except Fault (Tools × CfgCode) :=
  match getOrCreate ts name with
  | .error f => .error f
  | .ok (ts, i) =>
    if key = keyPriority then
      .ok ({ ts with store := ts.store.modify i (fun t => { t with priority := v }) }, .success)
    else .ok (ts, .internal)

/-- src/tool.c:157-164 `get_default_configuration_value` (with `get_default_configuration` of
:151-155): what is at the location afterwards; `old` is what was there. -/
def defaultValue (key old : Int) : Int := if key = keyPriority then unsetPriority else old

/-- src/tool.c:166-193 `get_configuration_value` for any key: the code returned and what is at the
location afterwards.  `parent_tool` is always NULL, so the loop runs once. -/
def getConfig (ts : Tools) (name : Name) (key old : Int) : Except Fault (CfgCode × Int) :=
  match getTool ts name with
  | .error f => .error f
  | .ok none => .ok (.invalidTool, old)
  | .ok (some i) =>
    match ts.store[i]? with
    | none => .error .outOfBounds
    | some t =>
      let loc := defaultValue key old
      if key = keyPriority then
        if t.priority ≠ unsetPriority then .ok (.success, t.priority) else .ok (.success, loc)
      else .ok (.internal, loc)

/-- test/unit/gotcha_unit_tests.c:144-149: walk the list from `cur` and remove each tool met, after
its `next_tool` has been read. -/
def removeAll : Nat → Option Nat → Tools → Except Fault Tools
  | _, none, ts => .ok ts
  | 0, some _, _ => .error .diverge
  | fuel + 1, some i, ts =>
    match ts.store[i]? with
    | none => .error .outOfBounds
    | some t =>
      match remove ts i with
      | .error f => .error f
      | .ok ts' => removeAll fuel t.next ts'

end Tools

/-! ### binding tables -/

/-- src/tool.h:57-66 `struct binding_t`: whose table it is, the client's array, and the two lists it
is in. -/
structure BTable where
  tool : Nat
  user : List UBinding
  nextTool : Option Nat
  next : Option Nat
  deriving DecidableEq, Repr

/-- The tables allocated so far (never freed), the field `binding` of every tool, and the static
`all_bindings` (src/tool.c:22). -/
structure Tables where
  store : List BTable := []
  binding : List (Option Nat) := []
  all : Option Nat := none
  deriving DecidableEq, Repr

namespace Tables

/-- src/tool.c:73: a new tool has no tables. -/
def newTool (b : Tables) : Tables := { b with binding := b.binding ++ [none] }

/-- src/tool.c:95-137 `add_binding_to_tool`, without the fields of the internal bindings (which are in
Model/Core). -/
def add (b : Tables) (tool : Nat) (user : List UBinding) : Except Fault Tables :=
  match b.binding[tool]? with
  | none => .error .outOfBounds
  | some h =>
    let n := b.store.length
    .ok { store := b.store ++ [{ tool, user, nextTool := h, next := b.all }]
          binding := b.binding.set tool (some n)
          all := some n }

/-- A caller walking a list of tables along the field `nx`; the arrays met. -/
def walk (nx : BTable → Option Nat) (store : List BTable) :
    Nat → Option Nat → Except Fault (List (Nat × List UBinding))
  | _, none => .ok []
  | 0, some _ => .error .diverge
  | fuel + 1, some i =>
    match store[i]? with
    | none => .error .outOfBounds
    | some t =>
      match walk nx store fuel (nx t) with
      | .error f => .error f
      | .ok l => .ok ((t.tool, t.user) :: l)

/-- src/tool.c:147 `get_bindings`, followed along `next_binding`. -/
def getBindings (b : Tables) : Except Fault (List (Nat × List UBinding)) :=
  walk BTable.next b.store b.store.length b.all

/-- src/tool.c:149 `get_tool_bindings`, followed along `next_tool_binding`. -/
def getToolBindings (b : Tables) (tool : Nat) : Except Fault (List (Nat × List UBinding)) :=
  match b.binding[tool]? with
  | none => .error .outOfBounds
  | some h => walk BTable.nextTool b.store b.store.length h

/-- A tool is created, or a table is added. -/
inductive Ev
  | tool
  | table (tool : Nat) (user : List UBinding)

def run : List Ev → Tables → Except Fault Tables
  | [], b => .ok b
  | .tool :: evs, b => run evs b.newTool
  | .table t u :: evs, b =>
    match b.add t u with
    | .error f => .error f
    | .ok b => run evs b

end Tables
end Gotcha
