import Verif.Spec.Debug
import Verif.Model.Text
/-
What a reader of the debug output sees: every message as a line of words and values.
-/
namespace Gotcha.Spec.Text
open Spec.Printf (integer numeral)

/-- The parts of a line: words of the message, and values.  `place` is the name of a source file. -/
inductive Field where
  | text (s : Name)
  | place (s : Name)
  | str (s : Name)
  | int (z : Int)
  | nat (n : Nat)
  | hex (n : Nat)
  | addr (a : Addr)

/-- How the parts are written: integers in decimal, `hex` in hexadecimal, addresses with "0x" in front. -/
def Field.show : Field → Name
  | .text s | .place s | .str s => s
  | .int z => integer z
  | .nat n => numeral false 10 n
  | .hex n => numeral false 16 n
  | .addr a => nm "0x" ++ numeral false 16 a.toNat

/-- A line. -/
def «show» (fs : List Field) : Name := fs.flatMap Field.show

open Field

/-- The words and values of the messages of level 1 (see `Msg.says`). -/
def msgFields : Msg → List Field
  | .wrapCalled tool n => [text (nm "User called gotcha_wrap for tool "), str (tool.getD []), text (nm " with "), int n,
      text (nm " bindings\n")]
  | .noTool t => [text (nm "Found no existing tool with name "), str t, text (nm "\n")]
  | .newTool t => [text (nm "Created new tool "), str t, text (nm "\n")]
  | .symbol f => [text (nm "Symbol "), str f, text (nm " was found in program\n")]
  | .couldNot k n => [text (nm "Could not find bindings for "), int k, text (nm " / "), int n, text (nm " functions\n")]
  | .wrapDone => [text (nm "Gotcha wrap completed successfully\n")]
  | .setPriority t v => [text (nm "User called gotcha_set_priority("), str t, text (nm ", "), int v, text (nm ")\n")]
  | .dlopenCalled file flags => [text (nm "User called dlopen("), str (file.getD []), text (nm ", 0x"), hex flags.toNat,
      text (nm ")\n")]

/-- The words and values of every message.  ("Remapped call" has "0x" twice in front of the address of the wrapper;
"Wrapping main" ends without a newline.) -/
def fields (L : Layout) : Note → List Field
  | .one m => msgFields m
  | .dlsymCalled h f => [text (nm "User called dlsym("), addr (L.dl h), text (nm ", "), str f, text (nm ")\n")]
  | .clear h => [text (nm "Updating binding address pointer at "), addr (L.var h), text (nm " to "), addr 0#64,
      text (nm "\n")]
  | .point b v => [text (nm "Updating binding address pointer at "), addr (L.field b), text (nm " to "),
      addr (v.getD 0#64), text (nm "\n")]
  | .vdso a n => [text (nm "Skipping VDSO library at 0x"), hex a.toNat, text (nm " with name "), str n, text (nm "\n")]
  | .searching n => [text (nm "Searching for exported symbols in "), str n, text (nm "\n")]
  | .noSymbols n => [text (nm "Library "), str n, text (nm " does not export or import symbols\n")]
  | .checkGnu f n => [text (nm "Checking GNU hash for "), str f, text (nm " in "), str n, text (nm "\n")]
  | .checkElf f n => [text (nm "Checking ELF hash for "), str f, text (nm " in "), str n, text (nm "\n")]
  | .notIn f n => [str f, text (nm " not found in "), str n, text (nm "\n")]
  | .hidden f n => [text (nm "Symbol "), str f, text (nm " found but not exported in "), str n, text (nm "\n")]
  | .found f n a => [text (nm "Symbol "), str f, text (nm " found in "), str n, text (nm " at 0x"), hex a.toNat,
      text (nm "\n")]
  | .lookingUp f => [text (nm "Looking up exported symbols for "), str f, text (nm "\n")]
  | .newLib _ n => [text (nm "Creating new library object for "), str n, text (nm "\n")]
  | .wrapMain => [text (nm "Wrapping main with Gotcha's internal wrappers")]
  | .rewrite f t p => [text (nm "gotcha_rewrite_wrapper_orders for binding "), str f, text (nm " in tool "), str t,
      text (nm " of priority "), int p, text (nm "\n")]
  | .newEntry f => [text (nm "Adding new entry for "), str f, text (nm " to hash table\n")]
  | .toHead p hp => [text (nm "New binding priority "), int p, text (nm " is greater than head priority "), int hp,
      text (nm ", adding to head\n")]
  | .compare p t np => [text (nm "Comparing binding for new insertion "), int p, text (nm " to binding for tool "),
      str t, text (nm " at "), int np, text (nm "\n")]
  | .already => [text (nm "Tool is already inserted.  Skipping binding rewrite\n")]
  | .after t => [text (nm "Inserting binding after tool "), str t, text (nm "\n")]
  | .remap f a n w => [text (nm "Remapped call to "), str f, text (nm " at 0x"), hex a.toNat, text (nm " in "), str n,
      text (nm " to wrapper at 0x"), addr w, text (nm "\n")]
  | .mark .gotAfterPlt n r | .mark .pltAfterGot n r => [text (nm "Setting library "), str n,
      text (nm " GOT and PLT table from "), addr r.1, text (nm " to +"), nat r.2.toNat, text (nm " to writeable\n")]
  | .mark .gotOnly n r => [text (nm "Setting library "), str n, text (nm " only GOT table from "), addr r.1,
      text (nm " to +"), nat r.2.toNat, text (nm " to writeable\n")]
  | .mark .pltOnly n r => [text (nm "Setting library "), str n, text (nm " only PLT GOT table from "), addr r.1,
      text (nm " to +"), nat r.2.toNat, text (nm " to writeable\n")]
  | .markFailed .gotAfterPlt | .markFailed .pltAfterGot => [text (nm "GOTCHA attempted to mark both GOT and PLT GOT tables as writable and was unable to do so, calls to wrapped functions may likely fail.\n")]
  | .markFailed .gotOnly => [text (nm "GOTCHA attempted to mark the only GOT table as writable and was unable to do so, calls to wrapped functions may likely fail.\n")]
  | .markFailed .pltOnly => [text (nm "GOTCHA attempted to mark the only PLT GOT table as writable and was unable to do so, calls to wrapped functions may likely fail.\n")]
  | .skip n => [text (nm "Skipping library "), str n, text (nm " due to libraryFilterFunc\n")]
  | .upToDate n => [text (nm "Library "), str n, text (nm " is already up-to-date.  Skipping GOT rewriting\n")]
  | .callSites n => [text (nm "Searching all callsites for "), nat n, text (nm " bindings\n")]
  | .willMap i f w => [text (nm "\t"), int i, text (nm ": "), str f, text (nm " will map to "), addr w, text (nm "\n")]
  | .initNull n => [text (nm "Initializing "), int n, text (nm " user binding entries to NULL\n")]
  | .generation g => [text (nm "Moved current_generation to "), nat g.toNat, text (nm " in gotcha_wrap\n")]
  | .creating => [text (nm "Creating internal binding data structures and adding binding to tool\n")]
  | .tableFor n t => [text (nm "Created new binding table of size "), int n, text (nm " for tool "), str t,
      text (nm "\n")]
  | .processing n => [text (nm "Processing "), int n, text (nm " bindings\n")]
  | .needsLookup f => [text (nm "Symbol "), str f, text (nm " needs lookup operation\n")]
  | .stash f => [text (nm "Stashing "), str f, text (nm " in notfound_binding table to re-lookup on dlopens\n")]
  | .needsBinding f => [text (nm "Symbol "), str f, text (nm " needs binding from application\n")]
  | .notInLibrary f n => [text (nm "Symbol "), str f, text (nm " not found in the library "), str n, text (nm "\n")]
  | .notAfterCaller f => [text (nm "Symbol "), str f, text (nm " not found in the libraries after caller\n")]
  | .rebind f t => [text (nm "Trying to re-bind "), str f, text (nm " from tool "), str t, text (nm " after dlopen\n")]
  | .inner f t => [text (nm "Selecting new innermost version of binding "), str f, text (nm " from tool "), str t,
      text (nm ".\n")]
  | .still f => [text (nm "Still could not prepare binding "), str f, text (nm " after dlopen\n")]
  | .searchNew => [text (nm "Searching new dlopened libraries for previously-not-found exports\n")]
  | .updateGots => [text (nm "Updating GOT entries for new dlopened libraries\n")]
  | .noSuchTool t => [text (nm "Property being examined for nonexistent tool "), str t, text (nm "\n")]

/-- Is it an error (`some true`), an ordinary message (`some false`), or one without place? -/
def kind : Note → Option Bool
  | .willMap _ _ _ => none
  | .markFailed _ | .noSuchTool _ => some true
  | _ => some false

/-- Thread, process and place. -/
def head (tid pid : BitVec 32) (n : Note) : List Field :=
  [text (nm "["), int tid.toInt, text (nm "/"), int pid.toInt, text (nm "]["), place n.place.1, text (nm ":"),
    nat n.place.2, text (nm "] - ")]

/-- The line of a message. -/
def line (L : Layout) (tid pid : BitVec 32) (n : Note) : Name :=
  match kind n with
  | none => «show» (fields L n)
  | some true => nm "ERROR " ++ («show» (head tid pid n) ++ «show» (fields L n))
  | some false => «show» (head tid pid n) ++ «show» (fields L n)

/-- A NULL string in the message. -/
def hasNull : Note → Bool
  | .one m => m.hasNull
  | _ => false

def int32 (z : Int) : Prop := -2 ^ 31 ≤ z ∧ z < 2 ^ 31

/-- The numbers fit the types of their variables. -/
def Fits : Note → Prop
  | .one m => m.Fits
  | .rewrite _ _ p => int32 p
  | .toHead p hp | .compare p _ hp => int32 p ∧ int32 hp
  | .callSites n => n < 2 ^ 64
  | .willMap n _ _ | .initNull n | .tableFor n _ | .processing n => n < 2 ^ 31
  | _ => True

/-- A name without spaces and line breaks. -/
def plain (s : Name) : Prop := ∀ c ∈ s, c ≠ 32 ∧ c ≠ 10

/-- All names in the line are plain. -/
def Plain (L : Layout) (n : Note) : Prop := ∀ s, str s ∈ fields L n → plain s

end Gotcha.Spec.Text
