import Verif.Model.Basic
/-
Model of the tool list of src/tool.c: a singly linked list of tools threaded through
`next_tool`, headed by the static `tools`.  Tools are never freed; `tool_t *` is an index into an
append-only store, NULL is `none`.

Not modelled: the per-tool list of binding tables (`binding`, `next_tool_binding`,
`all_bindings`) and `child_tools`, which the library never reads; failure of `gotcha_malloc`.
-/
namespace Gotcha

/-- src/tool.h:72-79 `struct tool_t` (the fields that are read).  `priority` is a C `int`. -/
structure Tool where
  name : Name
  priority : Int
  next : Option Nat
  deriving Repr, DecidableEq

/-- The tools allocated so far and the static `tools` pointer (src/tool.c:21). -/
structure Tools where
  store : List Tool := []
  head : Option Nat := none
  deriving Repr, DecidableEq

namespace Tools

/-- src/tool.h:25 `UNSET_PRIORITY`. -/
def unsetPriority : Int := -1

/-- src/tool.c:85-93 `get_tool`: walk the list from pointer `p`.  `fuel` bounds the walk. -/
def findLoop (store : List Tool) (name : Name) : Nat → Option Nat → Except Fault (Option Nat)
  | _, none => .ok none
  | 0, some _ => .error .diverge
  | fuel + 1, some i =>
    match store[i]? with
    | none => .error .outOfBounds
    | some t => if name = t.name then .ok (some i) else findLoop store name fuel t.next

/-- src/tool.c:85-93 `get_tool`. -/
def getTool (ts : Tools) (name : Name) : Except Fault (Option Nat) :=
  findLoop ts.store name ts.store.length ts.head

/-- src/tool.c:55-58: the loop of `reorder_tool`; returns the tool after which to insert. -/
def reorderLoop (store : List Tool) (p : Int) : Nat → Nat → Except Fault Nat
  | 0, _ => .error .diverge
  | fuel + 1, cur =>
    match store[cur]? with
    | none => .error .outOfBounds
    | some c =>
      match c.next with
      | none => .ok cur
      | some n =>
        match store[n]? with
        | none => .error .outOfBounds
        | some t => if t.priority < p then reorderLoop store p fuel n else .ok cur

/-- src/tool.c:48-62 `reorder_tool`. -/
def reorder (ts : Tools) (i : Nat) : Except Fault Tools :=
  match ts.store[i]? with
  | none => .error .outOfBounds
  | some new =>
    let front : Tools := { store := ts.store.modify i (fun t => { t with next := ts.head }),
                           head := some i }
    match ts.head with
    | none => .ok front
    | some h =>
      match ts.store[h]? with
      | none => .error .outOfBounds
      | some ht =>
        if ht.priority ≥ new.priority then .ok front
        else
          match reorderLoop ts.store new.priority ts.store.length h with
          | .error f => .error f
          | .ok cur =>
            match ts.store[cur]? with
            | none => .error .outOfBounds
            | some c =>
              let store1 := ts.store.modify i (fun t => { t with next := c.next })
              .ok { ts with store := store1.modify cur (fun t => { t with next := some i }) }

/-- src/tool.c:39-45: the loop and final test of `remove_tool_from_list`.  When the target is not in
the list, `tool_equal(cur->next_tool, target)` at line 43 dereferences NULL. -/
def removeLoop (store : List Tool) (target : Tool) : Nat → Nat → Except Fault (List Tool)
  | 0, _ => .error .diverge
  | fuel + 1, cur =>
    match store[cur]? with
    | none => .error .outOfBounds
    | some c =>
      match c.next with
      | none => .error .nullDeref
      | some n =>
        match store[n]? with
        | none => .error .outOfBounds
        | some t =>
          if t.name = target.name then
            .ok (store.modify cur (fun c => { c with next := target.next }))
          else removeLoop store target fuel n

/-- src/tool.c:30-46 `remove_tool_from_list`. -/
def remove (ts : Tools) (i : Nat) : Except Fault Tools :=
  match ts.store[i]? with
  | none => .error .outOfBounds
  | some target =>
    match ts.head with
    | none => .ok ts
    | some h =>
      match ts.store[h]? with
      | none => .error .outOfBounds
      | some ht =>
        if ht.name = target.name then .ok { ts with head := ht.next }
        else
          match removeLoop ts.store target ts.store.length h with
          | .error f => .error f
          | .ok store => .ok { ts with store := store }

/-- src/tool.c:64-83 `create_tool` with the default configuration of :151-155.  The fresh
`next_tool` field is indeterminate in C until `reorder_tool` sets it; here it starts as NULL. -/
def create (ts : Tools) (name : Name) : Except Fault (Tools × Nat) :=
  let i := ts.store.length
  let ts1 : Tools :=
    { ts with store := ts.store ++ [{ name := name, priority := unsetPriority, next := none }] }
  match reorder ts1 i with
  | .error f => .error f
  | .ok ts2 => .ok (ts2, i)

/-- `get_tool` followed by `create_tool` when absent (src/gotcha.c:427-428 and :496-499). -/
def getOrCreate (ts : Tools) (name : Name) : Except Fault (Tools × Nat) :=
  match getTool ts name with
  | .error f => .error f
  | .ok (some i) => .ok (ts, i)
  | .ok none => create ts name

/-- src/tool.c:195 `get_priority`. -/
def priorityOf (ts : Tools) (i : Nat) : Except Fault Int :=
  match ts.store[i]? with
  | none => .error .outOfBounds
  | some t => .ok t.priority

/-- src/gotcha.c:493-507 `gotcha_configure_int` with key `GOTCHA_PRIORITY`, then the body of
`gotcha_set_priority` (:519-526). -/
def setPriority (ts : Tools) (name : Name) (v : Int) : Except Fault Tools :=
  match getOrCreate ts name with
  | .error f => .error f
  | .ok (ts1, i) =>
    let ts2 : Tools := { ts1 with store := ts1.store.modify i (fun t => { t with priority := v }) }
    match getOrCreate ts2 name with
    | .error f => .error f
    | .ok (ts3, j) =>
      match remove ts3 j with
      | .error f => .error f
      | .ok ts4 => reorder ts4 j

/-- src/tool.c:166-193 `get_configuration_value` for `GOTCHA_PRIORITY`: `none` is
`GOTCHA_INVALID_TOOL` with the output untouched.  `parent_tool` is always NULL (set at :77, never
changed), so the loop of :177-191 looks at the tool itself only. -/
def getPriority (ts : Tools) (name : Name) : Except Fault (Option Int) :=
  match getTool ts name with
  | .error f => .error f
  | .ok none => .ok none
  | .ok (some i) =>
    match ts.store[i]? with
    | none => .error .outOfBounds
    | some t =>
      let dflt := unsetPriority
      if t.priority ≠ unsetPriority then .ok (some t.priority) else .ok (some dflt)

/-- The list walked from the static `tools` (what `get_tool_list` exposes): tool indices in order. -/
def walk (store : List Tool) : Nat → Option Nat → Except Fault (List Nat)
  | _, none => .ok []
  | 0, some _ => .error .diverge
  | fuel + 1, some i =>
    match store[i]? with
    | none => .error .outOfBounds
    | some t =>
      match walk store fuel t.next with
      | .error f => .error f
      | .ok l => .ok (i :: l)

end Tools
end Gotcha
