import Verif.Demo.World
import Verif.Proof.Calls
/-
The specification evaluated on the concrete history.
-/
namespace Gotcha.Demo
open Spec

theorem demo_run : ∃ s os, run proc.env ops proc.start = .ok (s, os) := by
  obtain ⟨s, h, -⟩ := history_run proc_ok (history True)
  exact ⟨s, _, h⟩

theorem prefix_run (n : Nat) : ∃ s os, run proc.env (ops.take n) proc.start = .ok (s, os) := by
  have h : History proc True (ops.take n ++ ops.drop n) := by
    rw [List.take_append_drop]; exact history True
  obtain ⟨s, h, -⟩ := history_run proc_ok h.prefix
  exact ⟨s, _, h⟩

theorem prefix_history (strict : Prop) (n : Nat) : History proc strict (ops.take n) := by
  have h : History proc strict (ops.take n ++ ops.drop n) := by
    rw [List.take_append_drop]; exact history strict
  exact h.prefix

theorem reg_foo : registered env ops (nm "foo") = [⟨B, 0x50a, 10⟩, ⟨A, 0x50c, 12⟩] := by
  decide +kernel
theorem reg_bar : registered env ops (nm "bar") = [⟨B, 0x50b, 11⟩] := by decide +kernel
theorem cl_main : clientFrames ops (nm "main") = [⟨M, 0x50d, 13⟩] := by decide +kernel
theorem cl_foo : clientFrames ops (nm "foo") = [⟨B, 0x50a, 10⟩, ⟨A, 0x50c, 12⟩] := by
  decide +kernel
theorem real_foo : realAfter env [app, libc] ops (nm "foo") = some 0x20004000 := by decide +kernel
theorem real_bar : realAfter env [app, libc] ops (nm "bar") = some 0x30004000 := by decide +kernel
theorem real_bar3 : realAfter env [app, libc] (ops.take 3) (nm "bar") = none := by decide +kernel
theorem real_main : realAfter env [app, libc] ops (nm "main") = some 0x10004000 := by
  decide +kernel
theorem libs_ops : libsAfter [app, libc] ops = [app, libc, plug] := rfl
theorem slot_plug : (0x18, nm "foo") ∈ rlOf plug := by rw [rl_plug]; simp
theorem slot_app : (0x18, nm "foo") ∈ rlOf app := by rw [rl_app]; simp
theorem slot_bar : (0x20, nm "bar") ∈ rlOf app := by rw [rl_app]; simp
theorem foo_own : nm "foo" ∉ ownNames := by decide +kernel

theorem tries_bar : tries env [app, libc] (nm "bar") [] ops =
    [[app, libc], [app, libc, plug]] := by
  unfold ops
  simp only [tries, List.nil_append, List.cons_append, List.append_nil]
  rw [if_neg, if_pos, if_neg, if_pos, if_neg, if_neg] <;> first | rfl | decide +kernel

theorem take4 : ops.take 3 ++ [.dlopen loadPlug] = ops.take 4 := rfl
theorem reg_bar3 : registered env (ops.take 3) (nm "bar") = [⟨B, 0x50b, 11⟩] := by decide +kernel
theorem real_bar4 : realAfter env [app, libc] (ops.take 4) (nm "bar") = some 0x30004000 := by
  decide +kernel
theorem reg_foo3 : registered env (ops.take 3) (nm "foo") =
    [⟨B, 0x50a, 10⟩, ⟨A, 0x50c, 12⟩] := by decide +kernel

theorem demo_run2 : ∃ s os, run proc.env ops2 proc.start = .ok (s, os) := by
  obtain ⟨s, h, -⟩ := history_run proc_ok (history2 True)
  exact ⟨s, _, h⟩

theorem reg_foo2 : registered env ops2 (nm "foo") = [⟨B, 0x50a, 10⟩, ⟨A, 0x50c, 12⟩] := by
  decide +kernel
theorem real_foo2 : realAfter env [app, libc] ops2 (nm "foo") = some 0x20004000 := by
  decide +kernel

theorem demo_run3 : ∃ s os, run proc.env ops3 proc.start = .ok (s, os) := by
  obtain ⟨s, h, -⟩ := history_run proc_ok history3
  exact ⟨s, _, h⟩

end Gotcha.Demo
