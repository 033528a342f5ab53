import Verif.Model.Log
/-
The text of all messages: format strings, arguments and places of the `debug_printf`, `debug_bare_printf` and
`error_printf` calls of `Model/Log`, and what `gotcha_int_printf` (the build without libc) makes of them.

Simplifications: as in `Model/Log` and `Model/Debug`.  The addresses of objects that the engine's state knows by
number only (the caller's handle variables, the wrappee pointers in the heap, the handles of dlopen) are given by a
`Layout`.
-/
namespace Gotcha

/-- Where the objects are that `Model/Core` knows by number: the variables that `function_handle` points to
(src/gotcha.c:32-34), the `wrappee_pointer` fields (src/gotcha.c:43-45), the handles of dlopen other than RTLD_NEXT. -/
structure Layout where
  var : HAddr → Addr
  field : BId → Addr
  handle : Nat → Addr

/-- A handle as printed with `%p`; RTLD_NEXT is -1. -/
def Layout.dl (L : Layout) : DlHandle → Addr
  | .next => -1#64
  | .other h => L.handle h

/-- File and line of the message (see `Msg.place`). -/
def Note.place : Note → Name × Nat
  | .one m => m.place
  | .dlsymCalled _ _ => (nm "gotcha_dl.c", 158)
  | .clear _ => (nm "gotcha.c", 38)
  | .point _ _ => (nm "gotcha.c", 50)
  | .vdso _ _ => (nm "gotcha.c", 59)
  | .searching _ => (nm "gotcha.c", 63)
  | .noSymbols _ => (nm "gotcha.c", 67)
  | .checkGnu _ _ => (nm "gotcha.c", 73)
  | .checkElf _ _ => (nm "gotcha.c", 78)
  | .notIn _ _ => (nm "gotcha.c", 83)
  | .hidden _ _ => (nm "gotcha.c", 87)
  | .found _ _ _ => (nm "gotcha.c", 92)
  | .lookingUp _ => (nm "gotcha.c", 103)
  | .newLib false _ => (nm "gotcha.c", 107)
  | .newLib true _ => (nm "gotcha.c", 366)
  | .wrapMain => (nm "gotcha.c", 151)
  | .rewrite _ _ _ => (nm "gotcha.c", 158)
  | .newEntry _ => (nm "gotcha.c", 169)
  | .toHead _ _ => (nm "gotcha.c", 176)
  | .compare _ _ _ => (nm "gotcha.c", 188)
  | .already => (nm "gotcha.c", 199)
  | .after _ => (nm "gotcha.c", 203)
  | .remap _ _ _ _ => (nm "gotcha.c", 220)
  | .mark .gotAfterPlt _ _ => (nm "gotcha.c", 298)
  | .mark .pltAfterGot _ _ => (nm "gotcha.c", 316)
  | .mark .gotOnly _ _ => (nm "gotcha.c", 331)
  | .mark .pltOnly _ _ => (nm "gotcha.c", 345)
  | .markFailed .gotAfterPlt => (nm "gotcha.c", 307)
  | .markFailed .pltAfterGot => (nm "gotcha.c", 324)
  | .markFailed .gotOnly => (nm "gotcha.c", 337)
  | .markFailed .pltOnly => (nm "gotcha.c", 353)
  | .skip _ => (nm "gotcha.c", 371)
  | .upToDate _ => (nm "gotcha.c", 377)
  | .callSites _ => (nm "gotcha.c", 395)
  | .willMap _ _ _ => (nm "gotcha.c", 415)
  | .initNull _ => (nm "gotcha.c", 420)
  | .generation _ => (nm "gotcha.c", 435)
  | .creating => (nm "gotcha.c", 438)
  | .tableFor _ _ => (nm "tool.c", 138)
  | .processing _ => (nm "gotcha.c", 447)
  | .needsLookup _ => (nm "gotcha.c", 452)
  | .stash _ => (nm "gotcha.c", 456)
  | .needsBinding _ => (nm "gotcha.c", 467)
  | .notInLibrary _ _ => (nm "gotcha_dl.c", 95)
  | .notAfterCaller _ => (nm "gotcha_dl.c", 100)
  | .rebind _ _ => (nm "gotcha_dl.c", 112)
  | .inner _ _ => (nm "gotcha_dl.c", 119)
  | .still _ => (nm "gotcha_dl.c", 128)
  | .searchNew => (nm "gotcha_dl.c", 144)
  | .updateGots => (nm "gotcha_dl.c", 148)
  | .noSuchTool _ => (nm "tool.c", 171)

/-- The format string of the message, at `Note.place`. -/
def Note.fmt : Note → Name
  | .one m => m.fmt
  | .dlsymCalled _ _ => nm "User called dlsym(%p, %s)\n"
  | .clear _ | .point _ _ => nm "Updating binding address pointer at %p to %p\n"
  | .vdso _ _ => nm "Skipping VDSO library at 0x%lx with name %s\n"
  | .searching _ => nm "Searching for exported symbols in %s\n"
  | .noSymbols _ => nm "Library %s does not export or import symbols\n"
  | .checkGnu _ _ => nm "Checking GNU hash for %s in %s\n"
  | .checkElf _ _ => nm "Checking ELF hash for %s in %s\n"
  | .notIn _ _ => nm "%s not found in %s\n"
  | .hidden _ _ => nm "Symbol %s found but not exported in %s\n"
  | .found _ _ _ => nm "Symbol %s found in %s at 0x%lx\n"
  | .lookingUp _ => nm "Looking up exported symbols for %s\n"
  | .newLib _ _ => nm "Creating new library object for %s\n"
  | .wrapMain => nm "Wrapping main with Gotcha's internal wrappers"
  | .rewrite _ _ _ => nm "gotcha_rewrite_wrapper_orders for binding %s in tool %s of priority %d\n"
  | .newEntry _ => nm "Adding new entry for %s to hash table\n"
  | .toHead _ _ => nm "New binding priority %d is greater than head priority %d, adding to head\n"
  | .compare _ _ _ => nm "Comparing binding for new insertion %d to binding for tool %s at %d\n"
  | .already => nm "Tool is already inserted.  Skipping binding rewrite\n"
  | .after _ => nm "Inserting binding after tool %s\n"
  | .remap _ _ _ _ => nm "Remapped call to %s at 0x%lx in %s to wrapper at 0x%p\n"
  | .mark .gotAfterPlt _ _ | .mark .pltAfterGot _ _ =>
    nm "Setting library %s GOT and PLT table from %p to +%lu to writeable\n"
  | .mark .gotOnly _ _ => nm "Setting library %s only GOT table from %p to +%lu to writeable\n"
  | .mark .pltOnly _ _ => nm "Setting library %s only PLT GOT table from %p to +%lu to writeable\n"
  | .markFailed .gotAfterPlt | .markFailed .pltAfterGot =>
    nm "GOTCHA attempted to mark both GOT and PLT GOT tables as writable and was unable to do so, calls to wrapped functions may likely fail.\n"
  | .markFailed .gotOnly =>
    nm "GOTCHA attempted to mark the only GOT table as writable and was unable to do so, calls to wrapped functions may likely fail.\n"
  | .markFailed .pltOnly =>
    nm "GOTCHA attempted to mark the only PLT GOT table as writable and was unable to do so, calls to wrapped functions may likely fail.\n"
  | .skip _ => nm "Skipping library %s due to libraryFilterFunc\n"
  | .upToDate _ => nm "Library %s is already up-to-date.  Skipping GOT rewriting\n"
  | .callSites _ => nm "Searching all callsites for %lu bindings\n"
  | .willMap _ _ _ => nm "\t%d: %s will map to %p\n"
  | .initNull _ => nm "Initializing %d user binding entries to NULL\n"
  | .generation _ => nm "Moved current_generation to %u in gotcha_wrap\n"
  | .creating => nm "Creating internal binding data structures and adding binding to tool\n"
  | .tableFor _ _ => nm "Created new binding table of size %d for tool %s\n"
  | .processing _ => nm "Processing %d bindings\n"
  | .needsLookup _ => nm "Symbol %s needs lookup operation\n"
  | .stash _ => nm "Stashing %s in notfound_binding table to re-lookup on dlopens\n"
  | .needsBinding _ => nm "Symbol %s needs binding from application\n"
  | .notInLibrary _ _ => nm "Symbol %s not found in the library %s\n"
  | .notAfterCaller _ => nm "Symbol %s not found in the libraries after caller\n"
  | .rebind _ _ => nm "Trying to re-bind %s from tool %s after dlopen\n"
  | .inner _ _ => nm "Selecting new innermost version of binding %s from tool %s.\n"
  | .still _ => nm "Still could not prepare binding %s after dlopen\n"
  | .searchNew => nm "Searching new dlopened libraries for previously-not-found exports\n"
  | .updateGots => nm "Updating GOT entries for new dlopened libraries\n"
  | .noSuchTool _ => nm "Property being examined for nonexistent tool %s\n"

/-- The arguments of the message, at `Note.place`. -/
def Note.args (L : Layout) : Note → List Printf.Arg
  | .one m => m.args
  | .dlsymCalled h f => [.int (L.dl h), .str f]
  | .clear h => [.int (L.var h), .int 0#64]
  | .point b v => [.int (L.field b), .int (v.getD 0#64)]
  | .vdso a n => [.int a, .str n]
  | .searching n | .noSymbols n | .newLib _ n | .skip n | .upToDate n => [.str n]
  | .checkGnu f n | .checkElf f n | .notIn f n | .hidden f n | .notInLibrary f n | .rebind f n | .inner f n =>
    [.str f, .str n]
  | .found f n a => [.str f, .str n, .int a]
  | .lookingUp f | .newEntry f | .after f | .needsLookup f | .stash f | .needsBinding f | .notAfterCaller f
  | .still f | .noSuchTool f => [.str f]
  | .rewrite f t p => [.str f, .str t, .int (BitVec.ofInt 64 p)]
  | .toHead p hp => [.int (BitVec.ofInt 64 p), .int (BitVec.ofInt 64 hp)]
  | .compare p t np => [.int (BitVec.ofInt 64 p), .str t, .int (BitVec.ofInt 64 np)]
  | .remap f a n w => [.str f, .int a, .str n, .int w]
  | .mark _ n r => [.str n, .int r.1, .int r.2]
  | .callSites n | .initNull n | .processing n => [.int (BitVec.ofNat 64 n)]
  | .willMap i f w => [.int (BitVec.ofNat 64 i), .str f, .int w]
  | .generation g => [.int (g.setWidth 64)]
  | .tableFor n t => [.int (BitVec.ofNat 64 n), .str t]
  | .wrapMain | .already | .markFailed _ | .creating | .searchNew | .updateGots => []

/-- src/gotcha_utils.h:47-72: what is put in front of the format: nothing (`debug_bare_printf`), "ERROR " and the
place (`error_printf`), the place (`debug_printf`). -/
def Note.pre : Note → Name
  | .willMap _ _ _ => []
  | .markFailed _ | .noSuchTool _ => nm "ERROR [%d/%d][%s:%u] - "
  | _ => nm "[%d/%d][%s:%u] - "

/-- src/gotcha_utils.h:47-72: the arguments for it. -/
def Note.preArgs (tid pid : BitVec 32) : Note → List Printf.Arg
  | .willMap _ _ _ => []
  | n => [.int (tid.setWidth 64), .int (pid.setWidth 64), .str n.place.1, .int (BitVec.ofNat 64 n.place.2)]

/-- One message, in the build without libc (src/libc_wrappers.h:85-86): what is written to descriptor 2. -/
def Note.print (junk : Name → List UInt8) (buf : List UInt8) (L : Layout) (tid pid : BitVec 32) (n : Note) :
    Except Fault (List UInt8) :=
  match Printf.printf junk buf (n.pre ++ n.fmt) (n.preArgs tid pid ++ n.args L) with
  | .error f => .error f
  | .ok (_, out) => .ok out

/-- src/gotcha_utils.h:47-72: the messages of a log that are printed at a debug level, one after the other. -/
def printLog (junk : Name → List UInt8) (buf : List UInt8) (L : Layout) (tid pid : BitVec 32) (lvl : Nat) :
    List Note → Except Fault (List UInt8)
  | [] => .ok []
  | n :: ns =>
    if n.level ≤ lvl then
      match n.print junk buf L tid pid with
      | .error f => .error f
      | .ok out =>
        match printLog junk buf L tid pid lvl ns with
        | .error f => .error f
        | .ok out' => .ok (out ++ out')
    else printLog junk buf L tid pid lvl ns

end Gotcha
