import Verif.Spec.Syscall
/-
C133: the system calls of the build without libc.
-/
namespace Gotcha.Sys

theorem creat_bit (flags : BitVec 32) : flags &&& oCreat ≠ 0 ↔ flags.getLsbD 6 = true := by
  have h : oCreat = BitVec.twoPow 32 6 := rfl
  rw [h, BitVec.and_twoPow]
  cases flags.getLsbD 6 <;> decide

/-- One system call whose request is right. -/
theorem syscall_does {σ} (K : Kernel σ) (s : St σ) (c : Call) :
    Does K s c (syscall K c.req s).1 (c.val (syscall K c.req s).2) := by
  unfold syscall
  cases h : K s.kernel c.req with
  | mk k r =>
    by_cases hr : -4095 ≤ r ∧ r ≤ -1
    · simp only [hr, and_self, if_true]
      have he : (-r) = ((-r).toNat : Int) := by omega
      have := Does.fails (K := K) (s := s) (c := c) (k := k) (e := (-r).toNat) (by rw [h, ← he]; simp) (by omega) (by omega)
      rw [← he] at this
      exact this
    · simp only [hr, if_false]
      exact .works h (by omega)

theorem call_does {σ} {K : Kernel σ} (hK : OpenOk K) (s : St σ) {c : Call} (hp : c.Proper) (ht : ¬ c.tmpfile) :
    ∃ s' v, call K s c = some (s', v) ∧ Does K s c s' v := by
  have key := syscall_does K s c
  cases c with
  | openFile path flags args =>
    have hb := creat_bit flags
    have hmode : (if flags &&& oCreat ≠ 0 then args else some 0) =
        some (if NeedsMode flags then args.getD 0 else 0) := by
      by_cases h6 : flags.getLsbD 6 = true
      · have hn : NeedsMode flags := Or.inl h6
        rw [if_pos (hb.2 h6), if_pos hn]
        obtain ⟨m, hm⟩ := Option.ne_none_iff_exists'.1 (hp hn)
        rw [hm]; rfl
      · have hn : ¬ NeedsMode flags := by
          rintro (h | h)
          · exact h6 h
          · exact ht ⟨by simpa using h6, h⟩
        rw [if_neg (fun h => h6 (hb.1 h)), if_neg hn]
    simp only [call, gotchaOpen, hmode]
    change Does K s _ (syscall K (.openFile path flags _) s).1 (.int (BitVec.ofInt 32 (syscall K (.openFile path flags _) s).2)) at key
    by_cases hr : (syscall K (.openFile path flags (if NeedsMode flags then args.getD 0 else 0)) s).2 ≥ 0
    · rw [if_pos hr]
      exact ⟨_, _, rfl, key⟩
    · rw [if_neg hr]
      refine ⟨_, _, rfl, ?_⟩
      have : (syscall K (.openFile path flags (if NeedsMode flags then args.getD 0 else 0)) s).2 = -1 := by
        have hk := hK s.kernel path flags (if NeedsMode flags then args.getD 0 else 0)
        revert hr
        unfold syscall
        cases h : K s.kernel (.openFile path flags (if NeedsMode flags then args.getD 0 else 0)) with
        | mk k r =>
          rw [h] at hk
          simp only at hk ⊢
          split
          · intro _; rfl
          · rename_i hx
            intro hr
            simp only at hr
            omega
      rw [this] at key
      exact key
  | _ => exact ⟨_, _, rfl, key⟩

/-- C133.  In the build without libc, a program that makes any sequence of the calls for which GOTCHA has its own
functions (open, read, write, close, mmap, mprotect, getpid, gettid) gets what the manual pages promise, whatever the
kernel answers: each call asks the kernel once, with the arguments the caller has passed; if the kernel reports an
error -1 comes back and errno is that error, otherwise the kernel's result comes back and errno stays as it was.  No
argument is read that has not been passed.  The exception is open with O_TMPFILE. -/
theorem C133_system_calls {σ} {K : Kernel σ} (hK : OpenOk K) (cs : List Call) : ∀ (s : St σ),
    (∀ c ∈ cs, c.Proper ∧ ¬ c.tmpfile) → ∃ s' vs, calls K cs s = some (s', vs) ∧ DoesAll K s cs s' vs := by
  induction cs with
  | nil => intro s _; exact ⟨s, [], rfl, .nil⟩
  | cons c cs ih =>
    intro s h
    obtain ⟨s1, v, e1, e2⟩ := call_does hK s (h c (by simp)).1 (h c (by simp)).2
    obtain ⟨s2, vs, f1, f2⟩ := ih s1 fun c' hc => h c' (List.mem_cons_of_mem _ hc)
    exact ⟨s2, v :: vs, by simp only [calls, e1, f1], .cons e2 f2⟩

/-- C133: what the calls do is determined by the manual pages. -/
theorem C133_determined {σ} {K : Kernel σ} (cs : List Call) : ∀ {s s1 s2 : St σ} {v1 v2 : List Val},
    DoesAll K s cs s1 v1 → DoesAll K s cs s2 v2 → s1 = s2 ∧ v1 = v2 := by
  have one : ∀ {s s1 s2 : St σ} {c : Call} {v1 v2 : Val}, Does K s c s1 v1 → Does K s c s2 v2 → s1 = s2 ∧ v1 = v2 := by
    intro s s1 s2 c v1 v2 h1 h2
    cases h1 with
    | fails a1 a2 a3 =>
      cases h2 with
      | fails b1 b2 b3 =>
        rw [a1] at b1
        simp only [Prod.mk.injEq] at b1
        obtain ⟨rfl, hx⟩ := b1
        exact ⟨by rw [show (_ : Int) = _ from Int.neg_inj.1 hx], rfl⟩
      | works b1 b2 =>
        rw [a1] at b1
        simp only [Prod.mk.injEq] at b1
        omega
    | works a1 a2 =>
      cases h2 with
      | fails b1 b2 b3 =>
        rw [a1] at b1
        simp only [Prod.mk.injEq] at b1
        omega
      | works b1 b2 =>
        rw [a1] at b1
        simp only [Prod.mk.injEq] at b1
        obtain ⟨rfl, rfl⟩ := b1
        exact ⟨rfl, rfl⟩
  induction cs with
  | nil => intro s s1 s2 v1 v2 h1 h2; cases h1; cases h2; exact ⟨rfl, rfl⟩
  | cons c cs ih =>
    intro s s1 s2 v1 v2 h1 h2
    cases h1 with
    | cons a1 a2 =>
      cases h2 with
      | cons b1 b2 =>
        obtain ⟨rfl, rfl⟩ := one a1 b1
        obtain ⟨rfl, rfl⟩ := ih a2 b2
        exact ⟨rfl, rfl⟩

namespace Demo

/-- A kernel that keeps the requests; the first file opened has number 3, then there are no more (24, EMFILE). -/
def kern : Kernel (List Req) := fun log q =>
  (log ++ [q], match q with
    | .openFile _ _ _ => if log.isEmpty then 3 else -24
    | .read _ _ n => n.toNat
    | _ => 0)

theorem kern_ok : OpenOk kern := by
  intro k path flags mode
  show -4095 ≤ (if k.isEmpty then (3 : Int) else -24)
  split <;> omega

/-- A file is created, read and closed, and then one is opened in vain. -/
def cs : List Call :=
  [ .openFile 0x1000 0x42 (some 0o644), .read 3 0x2000 100, .close 3, .openFile 0x1000 0 none ]

theorem cs_ok : ∀ c ∈ cs, c.Proper ∧ ¬ c.tmpfile := by
  intro c hc
  simp only [cs, List.mem_cons, List.not_mem_nil, or_false] at hc
  rcases hc with rfl | rfl | rfl | rfl
  · exact ⟨fun _ => by simp, by simp [Call.tmpfile]⟩
  · exact ⟨trivial, id⟩
  · exact ⟨trivial, id⟩
  · exact ⟨fun h => absurd h (by decide), by simp [Call.tmpfile]⟩

end Demo

example : ∃ s vs, calls Demo.kern Demo.cs ⟨[], 0⟩ = some (s, vs) ∧ DoesAll Demo.kern ⟨[], 0⟩ Demo.cs s vs ∧
    s.errno = 24 ∧ vs = [.int 3, .word 100, .int 0, .int (-1)] ∧
    s.kernel = [.openFile 0x1000 0x42 0o644, .read 3 0x2000 100, .close 3, .openFile 0x1000 0 0] := by
  obtain ⟨s, vs, e1, e2⟩ := C133_system_calls Demo.kern_ok Demo.cs ⟨[], 0⟩ Demo.cs_ok
  refine ⟨s, vs, e1, e2, ?_⟩
  have e3 : calls Demo.kern Demo.cs ⟨[], 0⟩ = some (⟨[.openFile 0x1000 0x42 0o644, .read 3 0x2000 100, .close 3,
    .openFile 0x1000 0 0], 24⟩, [.int 3, .word 100, .int 0, .int (-1)]) := rfl
  rw [e1] at e3
  simp only [Option.some.injEq, Prod.mk.injEq] at e3
  obtain ⟨rfl, rfl⟩ := e3
  exact ⟨rfl, rfl, rfl⟩

/-- C133, the exception: with O_TMPFILE and without O_CREAT the mode the caller has passed does not get to the kernel,
which is asked for a file that nobody may read or write. -/
theorem C133_tmpfile_refuted : ¬ ∀ (σ : Type) (K : Kernel σ), OpenOk K → ∀ (s : St σ) (c : Call), c.Proper →
    ∃ s' v, call K s c = some (s', v) ∧ Does K s c s' v := by
  intro hall
  obtain ⟨s', v, e1, e2⟩ := hall _ Demo.kern Demo.kern_ok ⟨[], 0⟩ (.openFile 0x1000 0x410002 (some 0o600))
    (fun _ => by simp)
  have e3 : call Demo.kern ⟨[], 0⟩ (.openFile 0x1000 0x410002 (some 0o600)) =
    some (⟨[.openFile 0x1000 0x410002 0], 0⟩, .int 3) := rfl
  rw [e1] at e3
  simp only [Option.some.injEq, Prod.mk.injEq] at e3
  obtain ⟨rfl, rfl⟩ := e3
  have hd : Does Demo.kern ⟨[], 0⟩ (.openFile 0x1000 0x410002 (some 0o600)) ⟨[.openFile 0x1000 0x410002 0o600], 0⟩ (.int 3) :=
    .works (r := 3) rfl (by omega)
  have := (C133_determined [_] (.cons e2 .nil) (.cons hd .nil)).1
  exact absurd (congrArg St.kernel this) (by decide)

end Gotcha.Sys
