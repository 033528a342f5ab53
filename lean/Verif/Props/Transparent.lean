import Verif.Proof.Loader
import Verif.Props.Compose
import Verif.Demo.Versions
/-
C101: do calls through wrappers that pass on the call end in the function the loader had bound them to?
-/
namespace Gotcha
open Spec Elf

theorem scope_sub {v : Option Addr} {libs : List Lib} {l : Lib} (h : l ∈ scope v libs) :
    l ∈ libs ∧ v ≠ some l.lm := by
  simpa [scope] using h

/-- C101: ordinary functions.  Take a function of which every object of the process has at most one
definition, none of them an IFUNC, in a version that answers the reference, and objects that stay loaded.
Then GOTCHA's idea of the real function agrees with the loader's: a call runs the wrappers and ends in
the function the loader binds the reference to. -/
theorem C101_calls_reach_what_the_loader_binds {p : Process} (ok : p.Ok) {good : Lib → Prop} {ops : List Op}
    (h : HistoryFor p True good ops) {s os} (hr : run p.env ops p.start = .ok (s, os)) {f : Name}
    (hf : f ∉ ownNames) (ha : Ascii f) (hne : clientFrames ops f ≠ [])
    (stay : ∀ dead, Op.unload dead ∈ ops → ∀ l ∈ p.libs, dead l.lm = false)
    {view : Lib → ObjView} {want : Option Name} {a : Addr}
    (plain : ∀ l ∈ scope (vdsoAfter p.env p.libs ops) p.libs, (view l).Of l ∧ (view l).Plain f ∧
      ∀ i, (view l).Named f i → (view l).Answers want i)
    (bound : Bound view (scope (vdsoAfter p.env p.libs ops) p.libs) f want a) (hprog : p.P a = none) :
    ∀ l ∈ libsAfter p.libs ops, good l → ∀ off, (off, f) ∈ rlOf l → ∀ path,
      Calls p.P s (s.mem (l.addr + off)) path ↔ path = wrappers (stackOf p ops f) ++ [a] := by
  intro l hl hg off hoff path
  have hd := bound_firstDef ha (fun l hl hv => plain l (by simpa [scope] using ⟨hl, hv⟩)) bound
  exact calls_stack ok h hr (real_at_start hf hne stay hd) hprog (stackOf_client_ne hf hne) hl hg hoff path

/-- C101: wrapping is transparent.  At the start every slot for `f` holds what the loader has bound it
to; a call through the slot runs that function.  After the history it runs the wrappers, and then the
same function as before. -/
theorem C101_wrapping_is_transparent {p : Process} (ok : p.Ok) {good : Lib → Prop} {ops : List Op}
    (h : HistoryFor p True good ops) {s os} (hr : run p.env ops p.start = .ok (s, os)) {f : Name}
    (hf : f ∉ ownNames) (ha : Ascii f) (hne : clientFrames ops f ≠ [])
    (stay : ∀ dead, Op.unload dead ∈ ops → ∀ l ∈ p.libs, dead l.lm = false)
    {view : Lib → ObjView} {want : Lib → Addr → Option Name}
    (plain : ∀ l ∈ scope (vdsoAfter p.env p.libs ops) p.libs, (view l).Of l ∧ (view l).Plain f ∧
      ∀ i, (view l).Named f i → ∀ l' off, (view l).Answers (want l' off) i)
    (bound : ∀ l ∈ p.libs, ∀ off, (off, f) ∈ rlOf l →
      Bound view (scope (vdsoAfter p.env p.libs ops) p.libs) f (want l off) (p.mem (l.addr + off)) ∧
      p.P (p.mem (l.addr + off)) = none) :
    ∀ l ∈ p.libs, good l → ∀ off, (off, f) ∈ rlOf l → ∃ a,
      (∀ path, Calls p.P p.start (p.start.mem (l.addr + off)) path ↔ path = [a]) ∧
      (∀ path, Calls p.P s (s.mem (l.addr + off)) path ↔ path = wrappers (stackOf p ops f) ++ [a]) := by
  intro l hl hg off hoff
  obtain ⟨hb, hprog⟩ := bound l hl off hoff
  refine ⟨p.mem (l.addr + off), ?_, ?_⟩
  · intro path
    constructor
    · intro hc
      cases hc with
      | stop _ => rfl
      | cont h1 _ _ => exact absurd (hprog.symm.trans h1) (by simp)
    · rintro rfl
      exact .stop hprog
  · obtain ⟨m, hm⟩ := libsAfter_front (libs := p.libs) ops [] stay
    rw [List.append_nil] at hm
    exact C101_calls_reach_what_the_loader_binds ok h hr hf ha hne stay
      (fun l hl => ⟨(plain l hl).1, (plain l hl).2.1, fun i hi => (plain l hl).2.2 i hi _ _⟩) hb hprog l
      (by rw [hm]; simp [hl]) hg off hoff

/-- The first definition is the one with the highest version index, in the first object with a symbol of that
name. -/
theorem firstDef_highest {v : Option Addr} {libs : List Lib} {f : Name} (ha : Ascii f)
    {view : Lib → ObjView} {l1 l2 : List Lib} {l0 : Lib} (hsc : scope v libs = l1 ++ l0 :: l2)
    (hof : ∀ l ∈ l1 ++ [l0], (view l).Of l)
    (none1 : ∀ l ∈ l1, ∀ i x, (view l).Named f i → (view l).syms[i]? = some x → x.size = 0)
    {w : Nat} {x : DynSym} (hw : (view l0).Named f w) (hx : (view l0).syms[w]? = some x) (hsz : x.size ≠ 0)
    (hashed : (view l0).d.gnuHash ≠ 0 → (view l0).off ≤ w)
    (exported : (view l0).d.versym ≠ 0 → verAt (view l0).syms w ≠ 0)
    (highest : ∀ j, (view l0).Named f j → j ≠ w →
      (view l0).d.versym ≠ 0 ∧ verAt (view l0).syms j < verAt (view l0).syms w) :
    firstDef v libs f = some (x.value + l0.addr) := by
  have e0 : exportsAt l0 f = some (x.value + l0.addr) := by
    obtain ⟨r, o, e, ⟨n1, n2⟩, ho, hoo⟩ := exportsAt_newest (hof l0 (by simp)) ha
    have hd : Defines (view l0).syms o ((view l0).d.versym ≠ 0) f w := by
      refine ⟨?_, hw.2.1, hw.2.2, exported⟩
      rcases hoo with rfl | ⟨hgn, rfl⟩
      · exact hw.1
      · exact hashed hgn
    cases r with
    | none => exact absurd hd (n1.1 rfl w)
    | some w' =>
      obtain ⟨⟨h1, h2, h3, -⟩, h5⟩ := n2 w' rfl
      have hww : w'.toNat = w := by
        by_contra hc
        obtain ⟨hv, hlt⟩ := highest w'.toNat ⟨by omega, h2, h3⟩ hc
        have := h5 hv w hd
        omega
      rw [e]
      simp only [addrOf, Option.bind_some, hww, hx]
      rw [if_neg hsz]
  have e1 : ∀ l ∈ l1, exportsAt l f = none := by
    intro l hl
    obtain ⟨r, o, e, ⟨n1, n2⟩, ho, hoo⟩ := exportsAt_newest (hof l (by simp [hl])) ha
    rw [e]
    cases r with
    | none => rfl
    | some w' =>
      obtain ⟨⟨h1, h2, h3, -⟩, -⟩ := n2 w' rfl
      have hy := List.getElem?_eq_getElem h2
      simp only [addrOf, Option.bind_some, hy]
      rw [if_pos (none1 l hl _ _ ⟨by omega, h2, h3⟩ hy)]
  have : ∀ (v : Option Addr) (libs : List Lib) , firstDef v libs f = (scope v libs).findSome? (exportsAt · f) := by
    intro v libs
    unfold firstDef scope
    induction libs with
    | nil => rfl
    | cons y libs ih =>
      rw [List.findSome?_cons]
      by_cases hv : v = some y.lm
      · rw [if_pos hv, List.filter_cons_of_neg (by simpa using hv)]
        exact ih
      · rw [if_neg hv, List.filter_cons_of_pos (by simpa using hv), List.findSome?_cons, ih]
  rw [this, hsc, List.findSome?_append, List.findSome?_eq_none_iff.2 e1, List.findSome?_cons, e0]
  rfl

/-- C101: what happens otherwise.  Let `l0` be the first object with a symbol `f` of a size other than 0,
and `w` its symbol `f` with the highest version index.  After wrapping all calls of `f`, whichever version
the library was linked against, end at the value of that symbol; this is so for a symbol of any type,
and for an IFUNC it is the address of the resolver. -/
theorem C101_calls_reach_the_highest_version {p : Process} (ok : p.Ok) {good : Lib → Prop} {ops : List Op}
    (h : HistoryFor p True good ops) {s os} (hr : run p.env ops p.start = .ok (s, os)) {f : Name}
    (hf : f ∉ ownNames) (ha : Ascii f) (hne : clientFrames ops f ≠ [])
    (stay : ∀ dead, Op.unload dead ∈ ops → ∀ l ∈ p.libs, dead l.lm = false)
    {view : Lib → ObjView} {l1 l2 : List Lib} {l0 : Lib}
    (hsc : scope (vdsoAfter p.env p.libs ops) p.libs = l1 ++ l0 :: l2)
    (hof : ∀ l ∈ l1 ++ [l0], (view l).Of l)
    (none1 : ∀ l ∈ l1, ∀ i x, (view l).Named f i → (view l).syms[i]? = some x → x.size = 0)
    {w : Nat} {x : DynSym} (hw : (view l0).Named f w) (hx : (view l0).syms[w]? = some x) (hsz : x.size ≠ 0)
    (hashed : (view l0).d.gnuHash ≠ 0 → (view l0).off ≤ w)
    (exported : (view l0).d.versym ≠ 0 → verAt (view l0).syms w ≠ 0)
    (highest : ∀ j, (view l0).Named f j → j ≠ w →
      (view l0).d.versym ≠ 0 ∧ verAt (view l0).syms j < verAt (view l0).syms w)
    (hprog : p.P (x.value + l0.addr) = none) :
    ∀ l ∈ libsAfter p.libs ops, good l → ∀ off, (off, f) ∈ rlOf l → ∀ path,
      Calls p.P s (s.mem (l.addr + off)) path ↔
        path = wrappers (stackOf p ops f) ++ [x.value + l0.addr] := by
  intro l hl hg off hoff path
  exact calls_stack ok h hr (real_at_start hf hne stay
    (firstDef_highest ha hsc hof none1 hw hx hsz hashed exported highest)) hprog (stackOf_client_ne hf hne) hl hg
    hoff path

namespace Demo

/-- How the loader sees the objects of `procV`. -/
noncomputable def viewV (res : Option Addr) (l : Lib) : ObjView :=
  open Classical in
  if l = app then objView app [(nm "main", 0x4000)]
    [(0x18, nm "foo"), (0x20, nm "bar"), (0x28, nm "dlopen"), (0x30, nm "__libc_start_main")]
  else if l = libv then libvView res
  else objView libc [(nm "foo", 0x4000), (nm "dlopen", 0x5000), (nm "dlsym", 0x6000),
    (nm "__libc_start_main", 0x7000)] []

theorem viewV_app (res : Option Addr) : viewV res app = objView app [(nm "main", 0x4000)]
    [(0x18, nm "foo"), (0x20, nm "bar"), (0x28, nm "dlopen"), (0x30, nm "__libc_start_main")] := by
  rw [viewV, if_pos rfl]

theorem viewV_libv (res : Option Addr) : viewV res libv = libvView res := by
  rw [viewV, if_neg (fun h => absurd (congrArg Lib.lm h) (by decide)), if_pos rfl]

theorem viewV_libc (res : Option Addr) : viewV res libc = objView libc [(nm "foo", 0x4000),
    (nm "dlopen", 0x5000), (nm "dlsym", 0x6000), (nm "__libc_start_main", 0x7000)] [] := by
  rw [viewV, if_neg (fun h => absurd (congrArg Lib.lm h) (by decide)),
    if_neg (fun h => absurd (congrArg Lib.lm h) (by decide))]

theorem viewV_of (res : Option Addr) : ∀ l ∈ [app, libv, libc], (viewV res l).Of l := by
  intro l hl
  simp only [List.mem_cons, List.not_mem_nil, or_false] at hl
  rcases hl with rfl | rfl | rfl
  · rw [viewV_app]; exact objView_of (by decide)
  · rw [viewV_libv]; exact libvView_of res
  · rw [viewV_libc]; exact objView_of (by decide)

theorem scopeV : scope (vdsoAfter env [app, libv, libc] opsV) [app, libv, libc] = [app, libv, libc] := rfl

/-- The application has no symbol of that name in its hash section. -/
theorem app_named (res : Option Addr) {f : Name} (hf : f ≠ nm "main") (i : Nat) :
    ¬ (viewV res app).Named f i := by
  rw [viewV_app]
  rintro ⟨h0, h1, h2⟩
  have h1 : i < 2 := h1
  obtain rfl : i = 1 := by omega
  exact hf h2.symm

theorem libv_named {res : Option Addr} {f : Name} {i : Nat} (h : (viewV res libv).Named f i) :
    (i = 1 ∧ f = nm "foo") ∨ (i = 2 ∧ f = nm "foo") ∨ (i = 3 ∧ f = eAcute) ∨ (i = 4 ∧ f = nm "bar") := by
  rw [viewV_libv] at h
  obtain ⟨h0, h1, rfl⟩ := h
  have h1 : i < 5 := h1
  have : i = 1 ∨ i = 2 ∨ i = 3 ∨ i = 4 := by omega
  rcases this with rfl | rfl | rfl | rfl
  · exact Or.inl ⟨rfl, rfl⟩
  · exact Or.inr (Or.inl ⟨rfl, rfl⟩)
  · exact Or.inr (Or.inr (Or.inl ⟨rfl, rfl⟩))
  · exact Or.inr (Or.inr (Or.inr ⟨rfl, rfl⟩))

theorem libc_named_bar (res : Option Addr) (i : Nat) : ¬ (viewV res libc).Named (nm "bar") i := by
  rw [viewV_libc]
  rintro ⟨h0, h1, h2⟩
  have h1 : i < 5 := h1
  have : i = 1 ∨ i = 2 ∨ i = 3 ∨ i = 4 := by omega
  rcases this with rfl | rfl | rfl | rfl
  · exact absurd h2 (show nm "foo" ≠ nm "bar" by decide +kernel)
  · exact absurd h2 (show nm "dlopen" ≠ nm "bar" by decide +kernel)
  · exact absurd h2 (show nm "dlsym" ≠ nm "bar" by decide +kernel)
  · exact absurd h2 (show nm "__libc_start_main" ≠ nm "bar" by decide +kernel)

theorem bar_named (res : Option Addr) : (viewV res libv).Named (nm "bar") 4 := by
  rw [viewV_libv]
  exact ⟨by decide, by show 4 < 5; decide, rfl⟩

theorem foo_ne_bar : nm "foo" ≠ nm "bar" := by decide +kernel
theorem eAcute_ne_bar : eAcute ≠ nm "bar" := by decide +kernel

theorem bar_only {res : Option Addr} {i : Nat} (h : (viewV res libv).Named (nm "bar") i) : i = 4 := by
  rcases libv_named h with ⟨-, e⟩ | ⟨-, e⟩ | ⟨-, e⟩ | ⟨e, -⟩
  · exact absurd e.symm foo_ne_bar
  · exact absurd e.symm foo_ne_bar
  · exact absurd e.symm eAcute_ne_bar
  · exact e

theorem bar_match (res : Option Addr) : (viewV res libv).Match (nm "bar") none 4 := by
  refine ⟨bar_named res, ?_, ?_⟩
  · rw [viewV_libv]; rfl
  · rw [viewV_libv]; exact fun _ => ⟨by show (1 : Nat) ≠ 0; decide, rfl⟩

theorem bound_bar (res : Option Addr) : Bound (viewV res) [app, libv, libc] (nm "bar") none
    (res.getD 0x50004000) := by
  refine ⟨[app], libv, [libc], 4, rfl, bar_match res, ?_, ?_⟩
  · rw [viewV_libv]
    cases res <;> rfl
  · intro l hl j hm
    rw [List.mem_singleton] at hl
    subst hl
    exact app_named res (by decide +kernel) j hm.1

theorem bound_foo : Bound (viewV none) [app, libv, libc] (nm "foo") (some V1) 0x50001000 := by
  refine ⟨[app], libv, [libc], 1, rfl, ⟨?_, ?_, ?_⟩, ?_, ?_⟩
  · rw [viewV_libv]
    exact ⟨by decide, by show 1 < 5; decide, rfl⟩
  · rw [viewV_libv]; rfl
  · rw [viewV_libv]; exact fun _ => Or.inl rfl
  · rw [viewV_libv]; rfl
  · intro l hl j hm
    rw [List.mem_singleton] at hl
    subst hl
    exact app_named none (by decide +kernel) j hm.1

theorem procV_run (b : Addr) : ∃ s os, run (procV b).env opsV (procV b).start = .ok (s, os) := by
  obtain ⟨s, h, -⟩ := history_run (procV_ok b) (historyV b)
  exact ⟨s, _, h⟩

/-- The conditions of C101 hold for bar if it is not an IFUNC: the wrapper 0x50b, then bar of libv. -/
example : ∃ s os, run (procV 0x50004000).env opsV (procV 0x50004000).start = .ok (s, os) ∧
    (∀ path, Calls P (procV 0x50004000).start 0x50004000 path ↔ path = [0x50004000]) ∧
    ∀ path, Calls P s (s.mem 0x10000020) path ↔ path = [0x50b, 0x50004000] := by
  obtain ⟨s, os, h⟩ := procV_run 0x50004000
  refine ⟨s, os, h, ?_⟩
  have slots : ∀ l ∈ [app, libv, libc], ∀ off, (off, nm "bar") ∈ rlOf l → l = app ∧ off = 0x20 := by
    intro l hl off hoff
    simp only [List.mem_cons, List.not_mem_nil, or_false] at hl
    rcases hl with rfl | rfl | rfl
    · rw [rl_app] at hoff
      simp only [List.mem_cons, Prod.mk.injEq, List.not_mem_nil, or_false] at hoff
      rcases hoff with ⟨-, e⟩ | ⟨e, -⟩ | ⟨-, e⟩ | ⟨-, e⟩
      · exact absurd e (by decide +kernel)
      · exact ⟨rfl, e⟩
      · exact absurd e (by decide +kernel)
      · exact absurd e (by decide +kernel)
    · rw [rl_libv] at hoff; cases hoff
    · rw [rl_libc] at hoff; cases hoff
  obtain ⟨a, h1, h2⟩ := C101_wrapping_is_transparent (procV_ok _) (historyV _).for h bar_own
    (by decide +kernel) (by decide +kernel) (by simp [opsV]) (view := viewV none) (want := fun _ _ => none)
    (by
      intro l hl
      replace hl : l ∈ [app, libv, libc] := (scope_sub hl).1
      refine ⟨viewV_of none l hl, ?_, ?_⟩
      · intro i hi
        simp only [List.mem_cons, List.not_mem_nil, or_false] at hl
        rcases hl with rfl | rfl | rfl
        · exact absurd hi (app_named none (by decide +kernel) i)
        · obtain rfl := bar_only hi
          refine ⟨fun j hj => bar_only hj, ?_, ?_⟩
          · rw [viewV_libv]
            refine ⟨fun _ x hx => ?_, fun _ => rfl⟩
            cases hx
            decide
          · rw [viewV_libv]
            exact fun _ => ⟨fun _ => by show 1 ≤ 4; decide, fun _ => by show (1 : Nat) ≠ 0; decide, rfl⟩
        · exact absurd hi (libc_named_bar none i)
      · intro i hi _ _
        simp only [List.mem_cons, List.not_mem_nil, or_false] at hl
        rcases hl with rfl | rfl | rfl
        · exact absurd hi (app_named none (by decide +kernel) i)
        · obtain rfl := bar_only hi
          exact (bar_match none).2.2
        · exact absurd hi (libc_named_bar none i))
    (by
      intro l hl off hoff
      obtain ⟨rfl, rfl⟩ := slots l hl off hoff
      exact ⟨bound_bar none, by show P 0x50004000 = none; decide⟩)
    app (by show _ ∈ [app, libv, libc]; simp) trivial _ slot_bar
  have ha : a = 0x50004000 := by
    have := (h1 [0x50004000]).1 (.stop (by show P 0x50004000 = none; decide))
    exact (List.cons.inj this).1.symm
  subst ha
  refine ⟨h1, ?_⟩
  rw [show wrappers (stackOf (procV 0x50004000) opsV (nm "bar")) ++ [0x50004000] =
    [0x50b, 0x50004000] by decide +kernel] at h2
  exact h2

/-- foo of libv, in two versions. -/
theorem callsV_foo {b : Addr} {s os} (h : run (procV b).env opsV (procV b).start = .ok (s, os))
    (path : List Addr) : Calls P s (s.mem (app.addr + 0x18)) path ↔ path = [0x50a, 0x50002000] := by
  have := C101_calls_reach_the_highest_version (procV_ok b) (historyV b).for h foo_own
    (by decide +kernel) (by decide +kernel) (by simp [opsV]) (view := viewV none) (l1 := [app]) (l0 := libv)
    (l2 := [libc]) rfl
    (fun l hl => viewV_of none l (by simp at hl ⊢; rcases hl with hl | hl <;> simp [hl]))
    (by
      intro l hl i x hi
      rw [List.mem_singleton] at hl
      subst hl
      exact absurd hi (app_named none (by decide +kernel) i))
    (w := 2) (x := ⟨nm "foo", 3, 0x2000, 8⟩)
    (by rw [viewV_libv]; exact ⟨by decide, by show 2 < 5; decide, rfl⟩) (by rw [viewV_libv]; rfl) (by decide)
    (by rw [viewV_libv]; exact fun _ => by show 1 ≤ 2; decide)
    (by rw [viewV_libv]; exact fun _ => by show (3 : Nat) ≠ 0; decide)
    (by
      intro j hj hne
      have hj1 : j = 1 := by
        rcases libv_named hj with ⟨e, -⟩ | ⟨e, -⟩ | ⟨-, e⟩ | ⟨-, e⟩
        · exact e
        · exact absurd e hne
        · exact absurd e (by decide +kernel)
        · exact absurd e foo_ne_bar
      subst hj1
      rw [viewV_libv]
      exact ⟨by show gV ≠ 0; decide, by show 2 < 3; decide⟩)
    (by show P 0x50002000 = none; decide) app (by show _ ∈ [app, libv, libc]; simp) trivial _ slot_app path
  rwa [show wrappers (stackOf (procV b) opsV (nm "foo")) ++ [(0x2000 : Addr) + libv.addr] =
    [0x50a, 0x50002000] by
      rw [show stackOf (procV b) opsV (nm "foo") = stackOf (procV 0) opsV (nm "foo") from rfl]
      decide +kernel] at this

/-- bar of libv, an IFUNC or not. -/
theorem callsV_bar {b : Addr} {s os} (h : run (procV b).env opsV (procV b).start = .ok (s, os))
    (path : List Addr) : Calls P s (s.mem (app.addr + 0x20)) path ↔ path = [0x50b, 0x50004000] := by
  have := C101_calls_reach_the_highest_version (procV_ok b) (historyV b).for h bar_own
    (by decide +kernel) (by decide +kernel) (by simp [opsV]) (view := viewV none) (l1 := [app]) (l0 := libv)
    (l2 := [libc]) rfl
    (fun l hl => viewV_of none l (by simp at hl ⊢; rcases hl with hl | hl <;> simp [hl]))
    (by
      intro l hl i x hi
      rw [List.mem_singleton] at hl
      subst hl
      exact absurd hi (app_named none (by decide +kernel) i))
    (w := 4) (x := ⟨nm "bar", 1, 0x4000, 8⟩)
    (bar_named none) (by rw [viewV_libv]; rfl) (by decide)
    (by rw [viewV_libv]; exact fun _ => by show 1 ≤ 4; decide)
    (by rw [viewV_libv]; exact fun _ => by show (1 : Nat) ≠ 0; decide)
    (fun j hj hne => absurd (bar_only hj) hne)
    (by show P 0x50004000 = none; decide) app (by show _ ∈ [app, libv, libc]; simp) trivial _ slot_bar path
  rwa [show wrappers (stackOf (procV b) opsV (nm "bar")) ++ [(0x4000 : Addr) + libv.addr] =
    [0x50b, 0x50004000] by
      rw [show stackOf (procV b) opsV (nm "bar") = stackOf (procV 0) opsV (nm "bar") from rfl]
      decide +kernel] at this

end Demo

/-- C101: transparency without the conditions on versions is false.  The application was linked against
version V1 of foo and bound to it; after wrapping, its calls end in version V2. -/
theorem C101_versions_refuted :
    ¬ ∀ (p : Process), p.Ok → ∀ (ops : List Op), History p True ops →
      ∀ s os, run p.env ops p.start = .ok (s, os) → ∀ f : Name, f ∉ ownNames → Ascii f →
      clientFrames ops f ≠ [] → (∀ dead, Op.unload dead ∉ ops) →
      ∀ (view : Lib → ObjView), (∀ l ∈ p.libs, (view l).Of l) →
      (∀ l ∈ p.libs, ∀ i, ((view l).kind i).resolver = none) → ∀ want : Option Name,
      ∀ l ∈ p.libs, ∀ off, (off, f) ∈ rlOf l →
      Bound view (scope (vdsoAfter p.env p.libs ops) p.libs) f want (p.mem (l.addr + off)) →
      p.P (p.mem (l.addr + off)) = none → ∀ path,
        Calls p.P s (s.mem (l.addr + off)) path →
        ∃ ws, path = ws ++ [p.mem (l.addr + off)] := by
  intro hall
  obtain ⟨s, os, h⟩ := Demo.procV_run 0
  have happ : Demo.app ∈ [Demo.app, Demo.libv, Demo.libc] := by simp
  obtain ⟨ws, e⟩ := hall (Demo.procV 0) (Demo.procV_ok 0) Demo.opsV (Demo.historyV 0) s os h (nm "foo")
    Demo.foo_own (by decide +kernel) (by decide +kernel) (by simp [Demo.opsV]) (Demo.viewV none)
    (Demo.viewV_of none)
    (by
      intro l hl i
      simp only [Demo.procV, List.mem_cons, List.not_mem_nil, or_false] at hl
      rcases hl with rfl | rfl | rfl
      · rw [Demo.viewV_app]; rfl
      · rw [Demo.viewV_libv]; simp [Demo.libvView]
      · rw [Demo.viewV_libc]; rfl)
    (some Demo.V1) Demo.app happ _ Demo.slot_app Demo.bound_foo (by show Demo.P 0x50001000 = none; decide)
    [0x50a, 0x50002000] ((Demo.callsV_foo h _).2 rfl)
  have e2 := congrArg List.getLast? e
  rw [List.getLast?_append] at e2
  exact absurd e2 (show (some (0x50002000 : Addr)) ≠ some 0x50001000 by decide)

/-- C101: transparency without the condition on IFUNCs is false, even if there is one version only.  The
loader has bound bar to what its resolver returned, 0x5000a000; after wrapping, calls of bar call the
resolver instead. -/
theorem C101_ifuncs_refuted :
    ¬ ∀ (p : Process), p.Ok → ∀ (ops : List Op), History p True ops →
      ∀ s os, run p.env ops p.start = .ok (s, os) → ∀ f : Name, f ∉ ownNames → Ascii f →
      clientFrames ops f ≠ [] → (∀ dead, Op.unload dead ∉ ops) →
      ∀ (view : Lib → ObjView), (∀ l ∈ p.libs, (view l).Of l) →
      (∀ l ∈ p.libs, ∀ i j, (view l).Named f i → (view l).Named f j → i = j) →
      ∀ l ∈ p.libs, ∀ off, (off, f) ∈ rlOf l →
      Bound view (scope (vdsoAfter p.env p.libs ops) p.libs) f none (p.mem (l.addr + off)) →
      p.P (p.mem (l.addr + off)) = none → ∀ path,
        Calls p.P s (s.mem (l.addr + off)) path →
        ∃ ws, path = ws ++ [p.mem (l.addr + off)] := by
  intro hall
  obtain ⟨s, os, h⟩ := Demo.procV_run 0x5000a000
  have happ : Demo.app ∈ [Demo.app, Demo.libv, Demo.libc] := by simp
  obtain ⟨ws, e⟩ := hall (Demo.procV 0x5000a000) (Demo.procV_ok _) Demo.opsV (Demo.historyV _) s os h
    (nm "bar") Demo.bar_own (by decide +kernel) (by decide +kernel) (by simp [Demo.opsV])
    (Demo.viewV (some 0x5000a000)) (Demo.viewV_of _)
    (by
      intro l hl i j hi hj
      simp only [Demo.procV, List.mem_cons, List.not_mem_nil, or_false] at hl
      rcases hl with rfl | rfl | rfl
      · exact absurd hi (Demo.app_named _ (by decide +kernel) i)
      · rw [Demo.bar_only hi, Demo.bar_only hj]
      · exact absurd hi (Demo.libc_named_bar _ i))
    Demo.app happ _ Demo.slot_bar (Demo.bound_bar (some 0x5000a000)) (by show Demo.P 0x5000a000 = none; decide)
    [0x50b, 0x50004000] ((Demo.callsV_bar h _).2 rfl)
  have e2 := congrArg List.getLast? e
  rw [List.getLast?_append] at e2
  exact absurd e2 (show (some (0x50004000 : Addr)) ≠ some 0x5000a000 by decide)

end Gotcha
