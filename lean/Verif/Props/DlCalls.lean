import Verif.Model.DlCalls
import Verif.Props.Dlsym
import Verif.Demo.Bad
/-
C91: the references to libraries that the intercepted dlsym takes.
C92: dlerror after the intercepted dlsym.
-/
namespace Gotcha
open Spec

/-- References a sequence of calls takes on the library of that name. -/
def taken (n : Option Name) (cs : List RealCall) : Nat :=
  cs.countP (fun
    | .dlopen m _ => decide (m = n)
    | .dlsym _ _ _ => false)

/-- Is an error pending (dlerror() ≠ NULL) after these calls, made when none was?  Each call of the
real functions sets or clears it. -/
def errorAfter : List RealCall → Bool
  | [] => false
  | [.dlsym _ _ v] => decide (v = 0)
  | [.dlopen _ _] => false
  | _ :: c :: cs => errorAfter (c :: cs)

/-- The recorded calls are made by the wrapper as modelled before: result and state are the same. -/
theorem dlsymCalls_erase (env : Env) (real : RealDl) (h : DlHandle) (name : Name) (who : Addr)
    (s : State) : (dlsymCalls env real h name who s).map (fun r => (r.1, r.2.1)) =
      dlsymWrapper env real h name who s := by
  unfold dlsymCalls dlsymWrapper
  cases s.getWrappee env.hDlopen with
  | error e => rfl
  | ok a =>
  cases s.getWrappee env.hDlsym with
  | error e => rfl
  | ok a =>
  have hother : (match h with
      | .next => do
        let (s, l) ← rtldNextLookup env name who s
        match l with
        | some l =>
          let hl := real.dlopen l.name
          let v := real.dlsym hl name
          (.ok (s, v, [RealCall.dlsym h name (real.dlsym h name), .dlopen l.name hl,
            .dlsym hl name v]) : Except Fault (State × Addr × List RealCall))
        | none => .ok (s, 0, [RealCall.dlsym h name (real.dlsym h name)])
      | .other _ => .ok (s, real.dlsym h name, [RealCall.dlsym h name (real.dlsym h name)])).map
        (fun r : State × Addr × List RealCall => (r.1, r.2.1)) =
      ((match h with
      | .next => do
        let (s, l) ← rtldNextLookup env name who s
        match l with
        | some l => .ok (s, real.dlsym (real.dlopen l.name) name)
        | none => .ok (s, 0)
      | .other _ => .ok (s, real.dlsym h name)) : Except Fault (State × Addr)) := by
    cases h with
    | other n => rfl
    | next =>
      cases hx : rtldNextLookup env name who s with
      | error e => simp [bind, Except.bind, Except.map, hx]
      | ok x =>
        obtain ⟨s', l⟩ := x
        cases l <;> simp [bind, Except.bind, Except.map, hx]
  simp only [bind, Except.bind] at hother ⊢
  cases hl : nameLookup s.funTab name with
  | error e => rfl
  | ok o =>
    cases o with
    | none => exact hother
    | some b =>
      simp only
      cases s.bind b with
      | error e => rfl
      | ok x =>
        simp only
        by_cases h0 : real.dlsym h name = 0
        · simp only [h0, if_true]
          cases s.handles x.user.handle <;> rfl
        · simp only [if_neg h0]
          cases s.getWrappee x.user.handle with
          | error e => rfl
          | ok w =>
            simp only
            by_cases hw : w = real.dlsym h name
            · simp only [if_pos hw]; rfl
            · simp only [if_neg hw]; exact hother

/-- At most one reference is taken by a call, none for a handle other than RTLD_NEXT, and none when
the result is not the answer of the real dlsym for the library found. -/
theorem C91_at_most_one (env : Env) (real : RealDl) (h : DlHandle) (f : Name) (who : Addr)
    (s : State) {s' v cs} (hc : dlsymCalls env real h f who s = .ok (s', v, cs)) :
    (∀ n, taken n cs = 0) ∨
      (h = .next ∧ ∃ l, taken l.name cs = 1 ∧ (∀ n, n ≠ l.name → taken n cs = 0) ∧
        v = real.dlsym (real.dlopen l.name) f ∧ rtldNextLookup env f who s = .ok (s', some l)) := by
  have hother : ∀ {s' v cs}, ((match h with
      | .next => do
        let (s, l) ← rtldNextLookup env f who s
        match l with
        | some l =>
          let hl := real.dlopen l.name
          let v := real.dlsym hl f
          (.ok (s, v, [RealCall.dlsym h f (real.dlsym h f), .dlopen l.name hl,
            .dlsym hl f v]) : Except Fault (State × Addr × List RealCall))
        | none => .ok (s, 0, [RealCall.dlsym h f (real.dlsym h f)])
      | .other _ => .ok (s, real.dlsym h f, [RealCall.dlsym h f (real.dlsym h f)])) :
        Except Fault (State × Addr × List RealCall)) = .ok (s', v, cs) →
      (∀ n, taken n cs = 0) ∨
      (h = .next ∧ ∃ l, taken l.name cs = 1 ∧ (∀ n, n ≠ l.name → taken n cs = 0) ∧
        v = real.dlsym (real.dlopen l.name) f ∧ rtldNextLookup env f who s = .ok (s', some l)) := by
    intro s' v cs hc
    cases h with
    | other n => cases hc; exact Or.inl (fun n => rfl)
    | next =>
      cases hx : rtldNextLookup env f who s with
      | error e => simp [bind, Except.bind, hx] at hc
      | ok x =>
        obtain ⟨s1, l⟩ := x
        cases l with
        | none =>
          simp only [bind, Except.bind, hx] at hc
          cases hc; exact Or.inl (fun n => rfl)
        | some l =>
          simp only [bind, Except.bind, hx] at hc
          cases hc
          refine Or.inr ⟨rfl, l, ?_, ?_, rfl, rfl⟩
          · simp [taken]
          · intro n hn
            simp [taken, Ne.symm hn]
  unfold dlsymCalls at hc
  simp only [bind, Except.bind] at hc hother
  cases h1 : s.getWrappee env.hDlopen with
  | error e => rw [h1] at hc; cases hc
  | ok a =>
  cases h2 : s.getWrappee env.hDlsym with
  | error e => rw [h1, h2] at hc; cases hc
  | ok a' =>
  cases hl : nameLookup s.funTab f with
  | error e => rw [h1, h2, hl] at hc; cases hc
  | ok o =>
    cases o with
    | none => rw [h1, h2, hl] at hc; exact hother hc
    | some b =>
      rw [h1, h2, hl] at hc
      simp only at hc
      cases hb : s.bind b with
      | error e => rw [hb] at hc; cases hc
      | ok x =>
        rw [hb] at hc
        simp only at hc
        by_cases h0 : real.dlsym h f = 0
        · simp only [h0, if_true] at hc
          cases hh : s.handles x.user.handle with
          | none => rw [hh] at hc; cases hc
          | some _ => rw [hh] at hc; cases hc; exact Or.inl (fun n => rfl)
        · simp only [if_neg h0] at hc
          cases hg : s.getWrappee x.user.handle with
          | error e => rw [hg] at hc; cases hc
          | ok w =>
            rw [hg] at hc
            simp only at hc
            by_cases hw : w = real.dlsym h f
            · simp only [if_pos hw] at hc; cases hc; exact Or.inl (fun n => rfl)
            · simp only [if_neg hw] at hc; exact hother hc

instance (o : Lib) (who : Addr) : Decidable (Contains o who) := by
  unfold Contains; infer_instance

/-- The library that answers dlsym(RTLD_NEXT, f) called from `who`, for the libraries `ls` in
link-map order: the first after the caller's that exports `f`. -/
def nextIn (vdso : Option Addr) (f : Name) (who : Addr) : List Lib → Option Lib
  | [] => none
  | c :: ls => if Contains c who then
      ls.find? (fun l => decide (vdso ≠ some l.lm) && (exportsAt l f).isSome)
    else nextIn vdso f who ls

theorem nextIn_split (vdso : Option Addr) (f : Name) (who : Addr) : ∀ ls : List Lib,
    (∃ o ∈ ls, Contains o who) → ∃ X c Y, ls = X ++ c :: Y ∧ Contains c who ∧
      (∀ o ∈ X, ¬ Contains o who) ∧ nextIn vdso f who ls =
        Y.find? (fun l => decide (vdso ≠ some l.lm) && (exportsAt l f).isSome)
  | [], h => by simp at h
  | c :: ls, h => by
    by_cases hc : Contains c who
    · exact ⟨[], c, ls, rfl, hc, by simp, by rw [nextIn, if_pos hc]⟩
    · obtain ⟨o, ho, h2⟩ := h
      have ho' : o ∈ ls := by
        rcases List.mem_cons.1 ho with rfl | h
        · exact absurd h2 hc
        · exact h
      obtain ⟨X, c', Y, e, h3, h4, h5⟩ := nextIn_split vdso f who ls ⟨o, ho', h2⟩
      refine ⟨c :: X, c', Y, by rw [e]; rfl, h3, ?_, by rw [nextIn, if_neg hc, h5]⟩
      intro x hx
      rcases List.mem_cons.1 hx with rfl | h
      · exact hc
      · exact h4 x h

/-- C91.  The calls of the real functions that dlsym(RTLD_NEXT, f) makes for a name nobody wrapped:
the real dlsym, and when a library after the caller's exports `f`, the real dlopen of that library,
which takes a reference to it, and dlsym again. -/
theorem C91_calls {p : Process} (ok : p.Ok) {strict : Prop} {ops : List Op}
    (h : History p strict ops) {s os} (hr : run p.env ops p.start = .ok (s, os))
    (hi : s.inited = true) (hd : HasDl p ops) {f : Name} (hnone : registered p.env ops f = [])
    (real : RealDl) (who : Addr) (hw : ∃ o ∈ libsAfter p.libs ops, Contains o who) :
    dlsymCalls p.env real .next f who s =
      match nextIn (vdsoAfter p.env p.libs ops) f who (libsAfter p.libs ops) with
      | some l => .ok (s, real.dlsym (real.dlopen l.name) f,
          [.dlsym .next f (real.dlsym .next f), .dlopen l.name (real.dlopen l.name),
            .dlsym (real.dlopen l.name) f (real.dlsym (real.dlopen l.name) f)])
      | none => .ok (s, 0, [.dlsym .next f (real.dlsym .next f)]) := by
  obtain ⟨⟨a1, e1⟩, ⟨a2, e2⟩⟩ := dl_handles ok h hr hi hd
  obtain ⟨X, c, Y, hlibs, hc, hfirst, hn⟩ := nextIn_split (vdsoAfter p.env p.libs ops) f who _ hw
  rw [hn]
  simp only [dlsymCalls, e1, e2, dlsym_unwrapped ok h hr hi hnone, bind, Except.bind,
    rtldNext_spec ok h hr hi f who hlibs hc hfirst]
  cases Y.find? (fun l => decide (vdsoAfter p.env p.libs ops ≠ some l.lm) &&
    (exportsAt l f).isSome) <;> rfl

theorem taken_append (n : Option Name) (a b : List RealCall) :
    taken n (a ++ b) = taken n a + taken n b := List.countP_append

/-- C91.  Any number of such calls, for any names nobody wrapped and from any loaded code: the
references taken to a library are as many as the calls it answered, and none is given back. -/
theorem C91_references_accumulate {p : Process} (ok : p.Ok) {strict : Prop} {ops : List Op}
    (h : History p strict ops) {s os} (hr : run p.env ops p.start = .ok (s, os))
    (hi : s.inited = true) (hd : HasDl p ops) (real : RealDl) (reqs : List (Name × Addr))
    (hreq : ∀ q ∈ reqs, registered p.env ops q.1 = [] ∧
      ∃ o ∈ libsAfter p.libs ops, Contains o q.2) :
    ∃ cs, nextCalls p.env real reqs s = .ok (s, cs) ∧ ∀ n, taken n cs =
      reqs.countP (fun q => decide ((nextIn (vdsoAfter p.env p.libs ops) q.1 q.2
        (libsAfter p.libs ops)).map (·.name) = some n)) := by
  induction reqs with
  | nil => exact ⟨[], rfl, fun n => rfl⟩
  | cons q reqs ih =>
    obtain ⟨f, who⟩ := q
    obtain ⟨cs, h1, h2⟩ := ih (fun q hq => hreq q (List.mem_cons_of_mem _ hq))
    obtain ⟨g1, g2⟩ := hreq (f, who) (by simp)
    have hcall := C91_calls ok h hr hi hd g1 real who g2
    simp only [nextCalls, bind, Except.bind, hcall]
    cases hx : nextIn (vdsoAfter p.env p.libs ops) f who (libsAfter p.libs ops) with
    | none =>
      simp only [h1]
      refine ⟨_, rfl, fun n => ?_⟩
      rw [taken_append, h2 n, List.countP_cons_of_neg (by simp [hx])]
      simp [taken]
    | some l =>
      simp only [h1]
      refine ⟨_, rfl, fun n => ?_⟩
      rw [taken_append, h2 n]
      by_cases hn : l.name = n
      · rw [List.countP_cons_of_pos (by simp [hx, hn])]
        simp [taken, hn]; omega
      · rw [List.countP_cons_of_neg (by simp [hx, hn])]
        simp [taken, hn]

theorem demo_next : nextIn (vdsoAfter Demo.proc.env Demo.proc.libs Demo.ops2)
    (nm "__libc_start_main") 0x10000100 (libsAfter Demo.proc.libs Demo.ops2) = some Demo.libc := by
  rw [show libsAfter Demo.proc.libs Demo.ops2 = [Demo.app, Demo.libc] from rfl, nextIn,
    if_pos (by unfold Contains; decide), List.find?_cons_of_pos]
  decide +kernel

theorem demo_caller : ∃ o ∈ libsAfter Demo.proc.libs Demo.ops2, Contains o 0x10000100 :=
  ⟨Demo.app, by show Demo.app ∈ [Demo.app, Demo.libc]; simp, by unfold Contains; decide⟩

/-- C91: references can be taken without limit; the reference count of libc grows by one with each
dlsym(RTLD_NEXT, "__libc_start_main"). -/
theorem C91_unbounded (k : Nat) : ∃ s os cs,
    run Demo.proc.env Demo.ops2 Demo.proc.start = .ok (s, os) ∧
    nextCalls Demo.proc.env ⟨fun _ _ => 0x20007000, fun _ => .other 0⟩
      (List.replicate k (nm "__libc_start_main", 0x10000100)) s = .ok (s, cs) ∧
    taken Demo.libc.name cs = k := by
  obtain ⟨s, os, hr⟩ := Demo.demo_run2
  have hi : s.inited = true := by
    rw [(history_view Demo.proc_ok (Demo.history2 True) hr).2.2]; rfl
  obtain ⟨cs, h1, h2⟩ := C91_references_accumulate Demo.proc_ok (Demo.history2 True) hr hi demo_dl
    ⟨fun _ _ => 0x20007000, fun _ => .other 0⟩
    (List.replicate k (nm "__libc_start_main", 0x10000100)) (by
      intro q hq
      rw [(List.mem_replicate.1 hq).2]
      exact ⟨reg_lsm, demo_caller⟩)
  refine ⟨s, os, cs, hr, h1, ?_⟩
  rw [h2, List.countP_replicate, if_pos]
  show decide ((nextIn (vdsoAfter Demo.proc.env Demo.proc.libs Demo.ops2)
    (nm "__libc_start_main") 0x10000100 (libsAfter Demo.proc.libs Demo.ops2)).map (·.name) = _) = _
  rw [demo_next]
  simp

/-- C91: a dlsym that leaves the reference counts alone, as the real one does. -/
theorem C91_dlsym_takes_no_reference_refuted :
    ¬ ∀ (p : Process), p.Ok → ∀ ops, History p True ops → HasDl p ops →
      ∀ s os, run p.env ops p.start = .ok (s, os) → ∀ (real : RealDl) h f who s' v cs,
      dlsymCalls p.env real h f who s = .ok (s', v, cs) → ∀ n, taken n cs = 0 := by
  intro hdoc
  obtain ⟨s, os, cs, hr, h1, h2⟩ := C91_unbounded 1
  rw [show List.replicate 1 (nm "__libc_start_main", (0x10000100 : Addr)) =
    [(nm "__libc_start_main", 0x10000100)] from rfl, nextCalls] at h1
  simp only [nextCalls, bind, Except.bind] at h1
  cases hc : dlsymCalls Demo.proc.env ⟨fun _ _ => 0x20007000, fun _ => .other 0⟩ .next
      (nm "__libc_start_main") 0x10000100 s with
  | error e => rw [hc] at h1; cases h1
  | ok x =>
    obtain ⟨s', v, c⟩ := x
    rw [hc] at h1
    simp only [List.append_nil] at h1
    cases h1
    have := hdoc Demo.proc Demo.proc_ok Demo.ops2 (Demo.history2 True) demo_dl s os hr _ _ _ _ _ _
      _ hc Demo.libc.name
    omega

/-- C92.  For a name nobody wrapped and an ordinary handle, an error is pending after dlsym exactly
when it returns NULL. -/
theorem C92_other_handle {p : Process} (ok : p.Ok) {strict : Prop} {ops : List Op}
    (h : History p strict ops) {s os} (hr : run p.env ops p.start = .ok (s, os))
    (hi : s.inited = true) (hd : HasDl p ops) {f : Name} (hnone : registered p.env ops f = [])
    (real : RealDl) (n : Nat) (who : Addr) : ∃ cs,
      dlsymCalls p.env real (.other n) f who s = .ok (s, real.dlsym (.other n) f, cs) ∧
      (errorAfter cs = true ↔ real.dlsym (.other n) f = 0) := by
  obtain ⟨⟨a1, e1⟩, ⟨a2, e2⟩⟩ := dl_handles ok h hr hi hd
  refine ⟨[.dlsym (.other n) f (real.dlsym (.other n) f)], ?_, by simp [errorAfter]⟩
  simp only [dlsymCalls, e1, e2, dlsym_unwrapped ok h hr hi hnone, bind, Except.bind]

/-- C92.  RTLD_NEXT, for a name nobody wrapped: when a library after the caller's exports it, an
error is pending exactly when NULL is returned.  When none does, NULL is returned and an error is
pending only if the real dlsym, which searches after GOTCHA's own library, failed as well. -/
theorem C92_next {p : Process} (ok : p.Ok) {strict : Prop} {ops : List Op}
    (h : History p strict ops) {s os} (hr : run p.env ops p.start = .ok (s, os))
    (hi : s.inited = true) (hd : HasDl p ops) {f : Name} (hnone : registered p.env ops f = [])
    (real : RealDl) (who : Addr) (hw : ∃ o ∈ libsAfter p.libs ops, Contains o who) : ∃ v cs,
      dlsymCalls p.env real .next f who s = .ok (s, v, cs) ∧
      match nextIn (vdsoAfter p.env p.libs ops) f who (libsAfter p.libs ops) with
      | some _ => errorAfter cs = true ↔ v = 0
      | none => v = 0 ∧ (errorAfter cs = true ↔ real.dlsym .next f = 0) := by
  rw [C91_calls ok h hr hi hd hnone real who hw]
  cases nextIn (vdsoAfter p.env p.libs ops) f who (libsAfter p.libs ops) with
  | some l => exact ⟨_, _, rfl, by simp [errorAfter]⟩
  | none => exact ⟨_, _, rfl, rfl, by simp [errorAfter]⟩

/-- C92.  For a wrapped name that the real dlsym does not find, dlsym returns the wrapper with an
error pending, whatever the handle. -/
theorem C92_wrapper_with_error {p : Process} (ok : p.Ok) {strict : Prop} {ops : List Op}
    (h : History p strict ops) {s os} (hr : run p.env ops p.start = .ok (s, os))
    (hd : HasDl p ops) {f : Name} {fr : Frame} {st : List Frame}
    (hst : stackOf p ops f = fr :: st) (real : RealDl) (hnd : DlHandle) (who : Addr)
    (hnf : real.dlsym hnd f = 0) : ∃ cs,
      dlsymCalls p.env real hnd f who s = .ok (s, fr.wrapper, cs) ∧ errorAfter cs = true := by
  obtain ⟨hv, -, hini⟩ := history_view ok h hr
  have hreg : registered p.env ops f ≠ [] := by
    intro hc
    have := stackOf_perm p ops f
    rw [hc, hst] at this
    exact absurd this.length_eq (by simp)
  have hi : s.inited = true := by rw [hini]; exact inited_of_registered hreg
  obtain ⟨⟨a1, e1⟩, ⟨a2, e2⟩⟩ := dl_handles ok h hr hi hd
  have hA : (Abs.run p.env ops p.abs).1.inited = true := by
    rw [abs_start, (run_prio p.env p.libs ops).2, ← hini]; exact hi
  obtain ⟨o, ho, hcase⟩ := hv.look hA f
  rcases hcase with ⟨hc, -⟩ | ⟨fr', st', b, hc, rfl, hb⟩
  · rw [show (Abs.run p.env ops p.abs).1.stack f = _ from hst] at hc; cases hc
  · rw [show (Abs.run p.env ops p.abs).1.stack f = _ from hst] at hc
    cases hc
    obtain ⟨x, t, hx, hxu, -, -⟩ := hb.bind
    have hxw : x.user.wrapper = fr.wrapper := by rw [hxu]
    have hxh : x.user.handle = fr.handle := by rw [hxu]
    refine ⟨[.dlsym hnd f 0], ?_, by simp [errorAfter]⟩
    simp only [dlsymCalls, e1, e2, ho, hx, bind, Except.bind, hnf, if_true, hxh, hb.handle, hxw]

/-- C92: an error pending after dlsym only when NULL is returned. -/
theorem C92_error_means_null_refuted :
    ¬ ∀ (p : Process), p.Ok → ∀ ops, History p True ops → HasDl p ops →
      ∀ s os, run p.env ops p.start = .ok (s, os) → ∀ (real : RealDl) h f who s' v cs,
      dlsymCalls p.env real h f who s = .ok (s', v, cs) → errorAfter cs = true → v = 0 := by
  intro hdoc
  obtain ⟨s, os, hr⟩ := Demo.demo_run2
  have hreg : registered Demo.proc.env Demo.ops2 (nm "foo") =
    [⟨Demo.B, 0x50a, 10⟩, ⟨Demo.A, 0x50c, 12⟩] := Demo.reg_foo2
  have hp := stackOf_perm Demo.proc Demo.ops2 (nm "foo")
  rw [hreg] at hp
  cases hst : stackOf Demo.proc Demo.ops2 (nm "foo") with
  | nil => rw [hst] at hp; exact absurd hp.length_eq (by simp)
  | cons fr st =>
    obtain ⟨cs, h1, h2⟩ := C92_wrapper_with_error Demo.proc_ok (Demo.history2 True) hr demo_dl hst
      ⟨fun _ _ => 0, fun _ => .other 0⟩ (.other 1) 0 rfl
    have h3 := hdoc Demo.proc Demo.proc_ok Demo.ops2 (Demo.history2 True) demo_dl s os hr _ _ _ _ _
      _ _ h1 h2
    have h4 : fr ∈ [(⟨Demo.B, 0x50a, 10⟩ : Frame), ⟨Demo.A, 0x50c, 12⟩] :=
      hp.subset (by rw [hst]; simp)
    simp only [List.mem_cons, List.not_mem_nil, or_false] at h4
    rcases h4 with rfl | rfl <;> revert h3 <;> decide

theorem demo_libc_caller :
    ∃ o ∈ libsAfter Demo.proc.libs Demo.ops2, Contains o 0x20000100 :=
  ⟨Demo.libc, by show Demo.libc ∈ [Demo.app, Demo.libc]; simp, by unfold Contains; decide⟩

theorem demo_libc_next : nextIn (vdsoAfter Demo.proc.env Demo.proc.libs Demo.ops2)
    (nm "__libc_start_main") 0x20000100 (libsAfter Demo.proc.libs Demo.ops2) = none := by
  rw [show libsAfter Demo.proc.libs Demo.ops2 = [Demo.app, Demo.libc] from rfl, nextIn,
    if_neg (by unfold Contains; decide), nextIn, if_pos (by unfold Contains; decide)]
  rfl

/-- C92: NULL returned only with an error pending.  libc, the last library, asks for the next
`__libc_start_main`: the real dlsym, searching after GOTCHA's library, finds libc's own. -/
theorem C92_null_means_error_refuted :
    ¬ ∀ (p : Process), p.Ok → ∀ ops, History p True ops → HasDl p ops →
      ∀ s os, run p.env ops p.start = .ok (s, os) → ∀ (real : RealDl) h f who s' v cs,
      dlsymCalls p.env real h f who s = .ok (s', v, cs) → v = 0 → errorAfter cs = true := by
  intro hdoc
  obtain ⟨s, os, hr⟩ := Demo.demo_run2
  have hi : s.inited = true := by
    rw [(history_view Demo.proc_ok (Demo.history2 True) hr).2.2]; rfl
  obtain ⟨v, cs, h1, h2⟩ := C92_next Demo.proc_ok (Demo.history2 True) hr hi demo_dl reg_lsm
    ⟨fun _ _ => 0x20007000, fun _ => .other 0⟩ 0x20000100 demo_libc_caller
  rw [demo_libc_next] at h2
  have h3 := hdoc Demo.proc Demo.proc_ok Demo.ops2 (Demo.history2 True) demo_dl s os hr _ _ _ _ _
    _ _ h1 h2.1
  have h4 := h2.2.1 h3
  revert h4
  show ¬ ((0x20007000 : Addr) = 0)
  decide

/-- The application asks for the next `__libc_start_main` and gets libc's, with no error pending;
dlsym with an ordinary handle that finds nothing leaves the error. -/
example : ∃ s os, run Demo.proc.env Demo.ops2 Demo.proc.start = .ok (s, os) ∧
    (∃ v cs, dlsymCalls Demo.proc.env ⟨fun _ _ => 0x20007000, fun _ => .other 0⟩ .next
      (nm "__libc_start_main") 0x10000100 s = .ok (s, v, cs) ∧ (errorAfter cs = true ↔ v = 0)) ∧
    ∃ cs, dlsymCalls Demo.proc.env ⟨fun _ _ => 0, fun _ => .other 0⟩ (.other 4)
      (nm "__libc_start_main") 0x10000100 s = .ok (s, 0, cs) ∧ errorAfter cs = true := by
  obtain ⟨s, os, hr⟩ := Demo.demo_run2
  have hi : s.inited = true := by
    rw [(history_view Demo.proc_ok (Demo.history2 True) hr).2.2]; rfl
  obtain ⟨v, cs, h1, h2⟩ := C92_next Demo.proc_ok (Demo.history2 True) hr hi demo_dl reg_lsm
    ⟨fun _ _ => 0x20007000, fun _ => .other 0⟩ 0x10000100 demo_caller
  rw [demo_next] at h2
  obtain ⟨cs', h3, h4⟩ := C92_other_handle Demo.proc_ok (Demo.history2 True) hr hi demo_dl reg_lsm
    ⟨fun _ _ => 0, fun _ => .other 0⟩ 4 0x10000100
  exact ⟨s, os, hr, ⟨v, cs, h1, h2⟩, cs', h3, h4.2 rfl⟩

/-- Not vacuous: dlsym with RTLD_NEXT for a name that nobody has wrapped takes a handle of at most one library. -/
example : ∃ s os s' v cs, run Demo.proc.env Demo.ops2 Demo.proc.start = .ok (s, os) ∧
    dlsymCalls Demo.proc.env ⟨fun _ _ => 0x20007000, fun _ => .other 0⟩ .next (nm "foo") 0x10000100 s = .ok (s', v, cs) ∧
    taken (some (nm "/lib/libc.so.6")) cs = 1 := by
  have hq : Demo.after Demo.proc.env Demo.ops2 Demo.proc.start (fun s =>
      match dlsymCalls Demo.proc.env ⟨fun _ _ => 0x20007000, fun _ => .other 0⟩ .next (nm "foo") 0x10000100 s with
      | .ok (_, _, cs) => decide (taken (some (nm "/lib/libc.so.6")) cs = 1)
      | .error _ => false) = true := by decide +kernel
  obtain ⟨s, os, hr, hq⟩ := Demo.after_run hq
  split at hq
  · rename_i s' v cs e
    exact ⟨s, os, s', v, cs, hr, e, of_decide_eq_true hq⟩
  · cases hq

end Gotcha
