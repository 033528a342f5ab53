import Verif.Model.Syscall
/-
C133: what the manual pages say about the calls of `Model/Syscall`.
-/
namespace Gotcha.Sys

/-- open(2): the mode must be passed if O_CREAT (bit 6) or O_TMPFILE (bit 22, and bit 16 of O_DIRECTORY) is in the
flags, and is ignored otherwise. -/
def NeedsMode (flags : BitVec 32) : Prop :=
  flags.getLsbD 6 = true ∨ (flags.getLsbD 22 = true ∧ flags.getLsbD 16 = true)

instance (flags : BitVec 32) : Decidable (NeedsMode flags) := by unfold NeedsMode; infer_instance

/-- The caller passes a mode where one is needed. -/
def Call.Proper : Call → Prop
  | .openFile _ flags mode => NeedsMode flags → mode ≠ none
  | _ => True

/-- An unnamed file is asked for (O_TMPFILE without O_CREAT). -/
def Call.tmpfile : Call → Prop
  | .openFile _ flags _ => flags.getLsbD 6 = false ∧ flags.getLsbD 22 = true ∧ flags.getLsbD 16 = true
  | _ => False

/-- What the kernel is to be asked. -/
def Call.req : Call → Req
  | .write fd buf count => .write fd buf count
  | .read fd buf count => .read fd buf count
  | .getpid => .getpid
  | .gettid => .gettid
  | .openFile path flags mode => .openFile path flags (if NeedsMode flags then mode.getD 0 else 0)
  | .mmap addr length prot flags fd offset => .mmap addr length prot flags fd offset
  | .mprotect addr length prot => .mprotect addr length prot
  | .close fd => .close fd

/-- Calls whose result is a word. -/
def Call.wide : Call → Bool
  | .write _ _ _ => true
  | .read _ _ _ => true
  | .mmap _ _ _ _ _ _ => true
  | _ => false

/-- The value -1 or the kernel's result, in the type of the call (`MAP_FAILED` is -1). -/
def Call.val (c : Call) (r : Int) : Val := if c.wide then .word (BitVec.ofInt 64 r) else .int (BitVec.ofInt 32 r)

/-- The kernel is asked once.  If it reports an error, -1 is returned and errno says which error it was, otherwise its
result is returned and errno is as it was. -/
inductive Does {σ : Type} (K : Kernel σ) (s : St σ) (c : Call) : St σ → Val → Prop where
  | fails {k : σ} {e : Nat} : K s.kernel c.req = (k, -(e : Int)) → 1 ≤ e → e ≤ 4095 → Does K s c ⟨k, e⟩ (c.val (-1))
  | works {k : σ} {r : Int} : K s.kernel c.req = (k, r) → (0 ≤ r ∨ r < -4095) → Does K s c ⟨k, s.errno⟩ (c.val r)

/-- Calls one after the other. -/
inductive DoesAll {σ : Type} (K : Kernel σ) : St σ → List Call → St σ → List Val → Prop where
  | nil {s} : DoesAll K s [] s []
  | cons {s c s1 v cs s2 vs} : Does K s c s1 v → DoesAll K s1 cs s2 vs → DoesAll K s (c :: cs) s2 (v :: vs)

/-- Opening a file gives a file descriptor or an error number. -/
def OpenOk {σ : Type} (K : Kernel σ) : Prop := ∀ k path flags mode, -4095 ≤ (K k (.openFile path flags mode)).2

end Gotcha.Sys
