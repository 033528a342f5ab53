import Verif.Proof.Kernel
import Verif.Demo.Lookalike
/-
C103: the kernel's files and the engine together.
-/
namespace Gotcha
open Spec Auxv Spec.Auxv

/-- The link map at the first question about the vdso. -/
def firstAsked : List Ask → Option (List Lib)
  | [] => none
  | .page :: qs => firstAsked qs
  | .vdso libs _ :: _ => some libs

/-- C103.  Whatever the order in which the code asks for the page size and for the vdso, and however the
link map changes meanwhile, the answers are those of one environment: its page size, and the vdso it gives
for the link map at the first question. -/
theorem C103_answers_of_one_environment {K : Files} {env : Env} (hK : K.Closes env) (qs : List Ask) :
    asks K Static.init qs = .ok (qs.map fun q => match q with
      | .page => .page env.page
      | .vdso _ lm => .vdso (decide ((firstAsked qs).bind env.vdsoOf = some lm))) := by
  have later : ∀ (qs : List Ask) (st : Static) (v : Option Addr), Rel K env st (some v) →
      asks K st qs = .ok (qs.map fun q => match q with
        | .page => .page env.page
        | .vdso _ lm => .vdso (decide (v = some lm))) := by
    intro qs
    induction qs with
    | nil => intro st v _; rfl
    | cons q qs ih =>
      intro st v h
      rw [asks]
      cases q with
      | page =>
        obtain ⟨st', e, h'⟩ := ask_page hK h
        simp only [e, ih st' v h', List.map_cons]
      | vdso libs lm =>
        have e := ask_later libs lm h
        simp only [e, ih st v h, List.map_cons]
  have first : ∀ (qs : List Ask) (st : Static), Rel K env st none →
      asks K st qs = .ok (qs.map fun q => match q with
        | .page => .page env.page
        | .vdso _ lm => .vdso (decide ((firstAsked qs).bind env.vdsoOf = some lm))) := by
    intro qs
    induction qs with
    | nil => intro st _; rfl
    | cons q qs ih =>
      intro st h
      rw [asks]
      cases q with
      | page =>
        obtain ⟨st', e, h'⟩ := ask_page hK h
        simp only [e, ih st' h', List.map_cons]
        rfl
      | vdso libs lm =>
        obtain ⟨st', e, h'⟩ := ask_first hK libs lm h
        simp only [e, later qs st' _ h', List.map_cons]
        rfl
  exact first qs Static.init (rel_init K env)

/-- C103: which environment it is, for a well-formed auxiliary vector and a link map without the names of
old kernels: the page size is the one of the vector, and the vdso the first object whose dynamic section
is at the offset at which the image of the vdso has it. -/
theorem C103_environment_of_the_vector {K : Files} {env : Env} (hK : K.Closes env)
    {es : List (Nat × Nat)} {tail : List UInt8} {sched : List Gotcha.Auxv.Ev}
    (ha : K.auxv = some ⟨auxBytes es tail, sched⟩) (hes : EntriesOk es) (hlen : es.length < 256)
    (hs : NoErrors sched) :
    env.page = pageSizeOf es ∧
    ∀ v, lastOf 33 es = some v → v ≠ 0 → ∀ pre l post, (∀ x ∈ pre ++ l :: post, ¬ VdsoName (mapOf x)) →
      DynamicAt (lastDynamic (K.image v)) (mapOf l) →
      (∀ x ∈ pre, ¬ DynamicAt (lastDynamic (K.image v)) (mapOf x)) →
      env.vdsoOf (pre ++ l :: post) = some l.lm := by
  constructor
  · obtain ⟨pgs, aux, h⟩ := hK.page
    obtain ⟨pgs', aux', h', -⟩ := Props.C55_pagesize (tail := tail) hes hlen hs
    rw [← ha, h] at h'
    simp only [Except.ok.injEq, Prod.mk.injEq] at h'
    exact h'.2.2
  · intro v hv h0 pre l post hno hd hpre
    obtain ⟨st, b, e, ev⟩ := hK.vdso (pre ++ l :: post)
    rw [ev]
    have hm : FirstWith (DynamicAt (lastDynamic (K.image v))) (K.outside (pre ++ l :: post)).maps (mapOf l) :=
      ⟨pre.map mapOf, post.map mapOf, by simp [Files.outside], hd, by
        intro x hx
        obtain ⟨y, hy, rfl⟩ := List.mem_map.1 hx
        exact hpre y hy⟩
    have key := fun x => Props.C56_by_auxv (o := K.outside (pre ++ l :: post)) (m := mapOf l) (by
        intro x hx
        obtain ⟨y, hy, rfl⟩ := List.mem_map.1 hx
        exact hno y hy) ha hes hlen hs hv h0 hm x
    obtain ⟨aux, e', -⟩ := isVdso_any (o := K.outside (pre ++ l :: post)) (a := AuxState.init) rfl e l.lm
    obtain ⟨st2, e2⟩ := key l.lm
    have := e'.symm.trans e2
    simp only [Except.ok.injEq, Prod.mk.injEq, mapOf, decide_true, decide_eq_true_eq] at this
    exact this.2.symm

/-- C103: the vdso and nothing else is passed over.  `lv` is the vdso: at the first API call it is loaded
and the only object with its dynamic section where the image named by the auxiliary vector has it.  Then
calls end in the first definition outside of `lv`. -/
theorem C103_only_the_vdso_is_passed_over {p : Process} (ok : p.Ok) {good : Lib → Prop} {ops : List Op}
    (h : HistoryFor p True good ops) {s os} (hr : run p.env ops p.start = .ok (s, os)) {K : Files}
    (hK : K.Closes p.env) {es : List (Nat × Nat)} {tail : List UInt8} {sched : List Gotcha.Auxv.Ev}
    (ha : K.auxv = some ⟨auxBytes es tail, sched⟩) (hes : EntriesOk es) (hlen : es.length < 256)
    (hs : NoErrors sched) {v : Nat} (hv : lastOf 33 es = some v) (h0 : v ≠ 0) {pre post : List Op} {op : Op}
    (hops : ops = pre ++ op :: post) (hpre : ∀ o ∈ pre, isApi o = false) (hop : isApi op = true)
    (hno : ∀ l ∈ libsAfter p.libs pre, ¬ VdsoName (mapOf l)) {lv : Lib}
    (hlv : lv ∈ libsAfter p.libs pre) (hd : DynamicAt (lastDynamic (K.image v)) (mapOf lv))
    (hone : ∀ l ∈ libsAfter p.libs pre, DynamicAt (lastDynamic (K.image v)) (mapOf l) → l = lv)
    {f : Name} (hne : registered p.env ops f ≠ []) {r : Addr}
    (hreal : (tries p.env p.libs f [] ops).findSome? (fun ls => ls.findSome? fun l =>
      if l.lm = lv.lm then none else exportsAt l f) = some r) (hprog : p.P r = none) :
    ∃ order : List Frame, order.Perm (registered p.env ops f) ∧
      (Settled ops → order.Pairwise (fun a b => prioOr b.tool ops ≤ prioOr a.tool ops)) ∧
      ∀ l ∈ libsAfter p.libs ops, good l → ∀ off, (off, f) ∈ rlOf l → ∀ path,
        Calls p.P s (s.mem (l.addr + off)) path ↔ path = wrappers order ++ [r] := by
  obtain ⟨P, Q, e, hP⟩ : ∃ P Q, libsAfter p.libs pre = P ++ lv :: Q ∧ lv ∉ P := by
    obtain ⟨P, Q, e, hP⟩ := List.eq_append_cons_of_mem hlv
    exact ⟨P, Q, e, hP⟩
  have hvd : vdsoAfter p.env p.libs ops = some lv.lm := by
    rw [hops, vdsoAfter_first hop post pre p.libs hpre, e]
    refine (C103_environment_of_the_vector hK ha hes hlen hs).2 v hv h0 P lv Q
      (fun x hx => hno x (by rw [e]; exact hx)) hd (fun x hx hx' => hP ?_)
    rw [← hone x (by rw [e]; simp [hx]) hx']
    exact hx
  have hreal' : realAfter p.env p.libs ops f = some r := by
    rw [← hreal, realAfter, hvd]
    congr 1
    funext ls
    unfold firstDef
    congr 1
    funext l
    by_cases hl : l.lm = lv.lm
    · simp [hl]
    · simp [hl, Ne.symm hl]
  have hst : stackOf p ops f ≠ [] := by
    intro hc
    have := stackOf_perm p ops f
    rw [hc] at this
    exact hne (List.nil_perm.1 this)
  exact ⟨stackOf p ops f, stackOf_perm p ops f, fun hs => stackOf_sorted p hs f,
    fun l hl hg off hoff path => calls_stack ok h hr hreal' hprog hst hl hg hoff path⟩

namespace Demo

theorem kernel_entries : EntriesOk [(33, 0x60000000), (6, 4096)] := by
  intro e he
  simp only [List.mem_cons, List.not_mem_nil, or_false] at he
  rcases he with rfl | rfl <;> decide

theorem kernel_closes : kernel.Closes envK := by
  constructor
  · obtain ⟨pgs, aux, h, -⟩ := Props.C55_pagesize (tail := []) (sched := []) kernel_entries (by decide)
      (by unfold NoErrors; decide)
    exact ⟨pgs, aux, h⟩
  · intro libs
    obtain ⟨aux, haux⟩ := Props.vdsoFromAuxv_eq (o := kernel.outside libs) rfl kernel_entries (by decide)
      (by unfold NoErrors; decide)
    unfold isVdso
    simp only [show VdsoState.init.checked = false from rfl, Bool.false_eq_true, if_false]
    have e1 : vdsoFromAliases (kernel.outside libs).maps = (libs.map mapOf).find? fun m =>
        m.name == some (nm "linux-vdso.so") || m.name == some (nm "linux-gate.so") := by
      unfold vdsoFromAliases
      congr 1
      funext m
      cases m.name with
      | none => simp
      | some n => simp [aliases]
    have e2 : vdsoFromAuxv VdsoState.init.aux (kernel.outside libs).auxv (kernel.outside libs).image
        (kernel.outside libs).maps = .ok (aux, (libs.map mapOf).find? fun m => m.addr + 0x3e0 == m.ld) := haux
    rw [e2]
    cases h1 : vdsoFromAliases (kernel.outside libs).maps with
    | some r =>
      refine ⟨_, _, rfl, ?_⟩
      rw [e1] at h1
      simp [envK, kdetect, h1]
    | none =>
      rw [e1] at h1
      cases h2 : (libs.map mapOf).find? fun m => m.addr + 0x3e0 == m.ld with
      | some r =>
        refine ⟨_, _, rfl, ?_⟩
        simp only [envK, kdetect, h1, h2]; rfl
      | none =>
        refine ⟨⟨true, none, aux⟩, false, rfl, ?_⟩
        simp only [envK, kdetect, h1, h2]; rfl

/-- The vdso is unloaded (or the link map changed) between two questions; the answer stays. -/
example : asks kernel Static.init [.vdso [kapp false, kvdso, libc] 0x6000, .page, .vdso [libc] 0x6000,
    .vdso [libc] 0x2000] = .ok [.vdso true, .page 4096, .vdso true, .vdso false] := by
  rw [C103_answers_of_one_environment kernel_closes]
  decide +kernel

theorem slot_kapp (d : Bool) : (0x18, nm "foo") ∈ rlOf (kapp d) := by rw [rl_kapp]; simp

theorem callsK (d : Bool) : ∃ s os, run envK opsK (procK d).start = .ok (s, os) ∧
    ∀ path, Calls P s (s.mem ((kapp d).addr + 0x18)) path ↔
      path = [0x50a, if d then 0x60004000 else 0x10004000] := by
  obtain ⟨s, h, -⟩ := history_run (procK_ok d) (historyK d)
  refine ⟨s, _, h, fun path => ?_⟩
  have := calls_stack (procK_ok d) (historyK d).for h (f := nm "foo")
    (r := if d then 0x60004000 else 0x10004000) (by cases d <;> decide +kernel)
    (by cases d <;> decide) (by cases d <;> decide +kernel) (l := kapp d)
    (by show _ ∈ [kapp d, kvdso, libc]; simp) trivial (slot_kapp d) path
  rwa [show wrappers (stackOf (procK d) opsK (nm "foo")) = [0x50a] by cases d <;> decide +kernel] at this

/-- The program's dynamic section is elsewhere: the vdso is passed over. -/
example : ∃ s os, run envK opsK (procK false).start = .ok (s, os) ∧ ∃ order : List Frame,
    order.Perm (registered envK opsK (nm "foo")) ∧ ∀ path,
      Calls P s (s.mem ((kapp false).addr + 0x18)) path ↔ path = wrappers order ++ [0x10004000] := by
  obtain ⟨s, h, -⟩ := history_run (procK_ok false) (historyK false)
  refine ⟨s, _, h, ?_⟩
  obtain ⟨order, h1, -, h3⟩ := C103_only_the_vdso_is_passed_over (procK_ok false) (historyK false).for h
    kernel_closes rfl kernel_entries (by decide) (by unfold NoErrors; decide) (v := 0x60000000) (by decide)
    (by decide) (pre := []) rfl (by simp) rfl
    (by
      intro l hl
      rcases libsK_U false l hl with rfl | rfl | rfl <;>
        (unfold VdsoName; decide +kernel))
    (lv := kvdso) (by show _ ∈ [kapp false, kvdso, libc]; simp) (by show _ = _; decide)
    (by
      intro l hl hd
      rcases libsK_U false l hl with rfl | rfl | rfl
      · exact absurd hd (by unfold DynamicAt; decide)
      · rfl
      · exact absurd hd (by unfold DynamicAt; decide))
    (f := nm "foo") (by decide +kernel) (r := 0x10004000) (by decide +kernel) (by decide)
  exact ⟨order, h1, fun path => h3 (kapp false) (by show _ ∈ [kapp false, kvdso, libc]; simp) trivial _
    (slot_kapp false) path⟩

end Demo

/-- C103: that the vdso is the only object with its dynamic section there cannot be dropped.  The program
has its own dynamic section at the same offset: it is taken for the vdso, its definition of foo passed
over, and calls end in the function of the vdso. -/
theorem C103_lookalike_refuted :
    ¬ ∀ (p : Process), p.Ok → ∀ (ops : List Op), History p True ops →
      ∀ s os, run p.env ops p.start = .ok (s, os) → ∀ K : Files, K.Closes p.env →
      ∀ (es : List (Nat × Nat)), EntriesOk es → es.length < 256 → K.auxv = some ⟨auxBytes es [], []⟩ →
      ∀ v, lastOf 33 es = some v → v ≠ 0 → (∀ l ∈ p.libs, ¬ VdsoName (mapOf l)) →
      ∀ lv ∈ p.libs, lv.addr = BitVec.ofNat 64 v → DynamicAt (lastDynamic (K.image v)) (mapOf lv) →
      (∃ tbl tool, ops = [.wrap tbl tool]) → ∀ (f : Name) (r : Addr), clientFrames ops f ≠ [] →
      p.libs.findSome? (fun l => if l.lm = lv.lm then none else exportsAt l f) = some r → p.P r = none →
      ∀ l ∈ p.libs, ∀ off, (off, f) ∈ rlOf l → ∀ path, Calls p.P s (s.mem (l.addr + off)) path →
        ∃ ws, path = ws ++ [r] := by
  intro hall
  obtain ⟨s, os, h, hc⟩ := Demo.callsK true
  obtain ⟨ws, e⟩ := hall (Demo.procK true) (Demo.procK_ok true) Demo.opsK (Demo.historyK true) s os h
    Demo.kernel Demo.kernel_closes _ Demo.kernel_entries (by decide) rfl 0x60000000 (by decide) (by decide)
    (by
      intro l hl
      rcases Demo.libsK_U true l hl with rfl | rfl | rfl <;>
        (unfold VdsoName; decide +kernel))
    Demo.kvdso (by show _ ∈ [Demo.kapp true, Demo.kvdso, Demo.libc]; simp) (by decide) (by show _ = _; decide)
    ⟨_, _, rfl⟩ (nm "foo") 0x10004000 (by decide +kernel) (by decide +kernel)
    (by decide) (Demo.kapp true)
    (by show _ ∈ [Demo.kapp true, Demo.kvdso, Demo.libc]; simp) _ (Demo.slot_kapp true) _
    ((hc [0x50a, 0x60004000]).2 rfl)
  have e2 := congrArg List.getLast? e
  rw [List.getLast?_append] at e2
  exact absurd e2 (show (some (0x60004000 : Addr)) ≠ some 0x10004000 by decide)

end Gotcha
