import Verif.Proof.Skip
import Verif.Proof.SkipMain
import Verif.Props.Effects
import Verif.Demo.Bad
/-
C68: the generation rule of update_library_got.  A library whose record carries the current generation
is skipped by every pass over the link map; gotcha_wrap marks every library it looks at, also when it
had only some functions to write.  So what a library has missed before a gotcha_wrap it goes on missing.
From this follow C12, C14 and C16 for every process, not only for the one of the refutations.
-/
namespace Gotcha
open Spec

/-- No GOT slot of another object, and none of `l` for another function, is at `a`. -/
def OnlySlot (p : Process) (l : Lib) (f : Name) (a : Addr) : Prop :=
  ∀ l', p.U l' → ∀ q ∈ rlOf l', l'.addr + q.1 = a → l' = l ∧ q.2 = f

/-- The table names a function that no table (GOTCHA's own included) has named before. -/
def NamesNew (p : Process) (pre : List Op) (tbl : List UBinding) : Prop :=
  ∃ f ∈ tbl.map UBinding.name, f ∉ (ownTable p.env ++ pre.flatMap tableOf).map UBinding.name

/-- C68.  gotcha_wrap of a table with at least one new function name brings every library that the
filter lets through up to date, as far as GOTCHA is concerned: until the next gotcha_wrap no event, in
particular no intercepted dlopen, writes into that library. -/
theorem C68_wrap_settles_libraries {p : Process} (ok : p.Ok) {pre post : List Op}
    {tbl : List UBinding} {tool : Option Name} (h : Events p False (pre ++ .wrap tbl tool :: post))
    (hi : pre.any isApi = true) (hm : ¬ hasMain tbl) (hnew : NamesNew p pre tbl)
    (hpost : ∀ t n, Op.wrap t n ∉ post) {s1 os1 s os}
    (hr1 : run p.env (pre ++ [.wrap tbl tool]) p.start = .ok (s1, os1))
    (hr : run p.env (pre ++ .wrap tbl tool :: post) p.start = .ok (s, os)) {l : Lib}
    (hl : Admitted (filterAfter pre) (libsAfter p.libs pre) l) (hrel : HasRel l) :
    ∀ a, (∀ l', p.U l' → l' ≠ l → ∀ q ∈ rlOf l', a ≠ l'.addr + q.1) →
      s.mem a = loaderMem s1.mem post a := by
  have e : pre ++ .wrap tbl tool :: post = (pre ++ [.wrap tbl tool]) ++ post := by simp
  rw [e] at h hr
  obtain ⟨s0, os0, o, h1, h2, -⟩ := run_last hr1
  have hlU : p.U l := by
    apply events_objs ok h.prefix.prefix h1
    obtain ⟨X, Y, e, -⟩ := hl
    rw [e]; simp
  have hg := (step_wrap ok h.prefix.prefix h1 hi h2 hm).2 hnew l hl hrel
  have hpost' : ∀ o ∈ post, isWrap o = false := by
    intro o ho
    cases o with
    | wrap t n => exact absurd ho (hpost t n)
    | _ => rfl
  exact (run_frozen ok hlU post h hr1 (by simp [hi]) hr hpost' hg).2

/-- C68, consequence.  A slot for `f` that GOTCHA had left as the loader made it when gotcha_wrap was
called for other functions stays so, through any number of intercepted dlopens, although `f` may long
have been wrapped. -/
theorem C68_what_was_missed_stays_missed {p : Process} (ok : p.Ok) {pre post : List Op}
    {tbl : List UBinding} {tool : Option Name} (h : Events p False (pre ++ .wrap tbl tool :: post))
    (hi : pre.any isApi = true) (hm : ¬ hasMain tbl) (hnew : NamesNew p pre tbl)
    (hpost : ∀ t n, Op.wrap t n ∉ post) {s0 os0 s os}
    (hr0 : run p.env pre p.start = .ok (s0, os0))
    (hr : run p.env (pre ++ .wrap tbl tool :: post) p.start = .ok (s, os)) {l : Lib}
    (hl : Admitted (filterAfter pre) (libsAfter p.libs pre) l) {off f} (hoff : (off, f) ∈ rlOf l)
    (hf : f ∉ tbl.map UBinding.name) (hown : OnlySlot p l f (l.addr + off))
    (hmiss : s0.mem (l.addr + off) = loaderMem p.mem pre (l.addr + off)) :
    s.mem (l.addr + off) = loaderMem p.mem (pre ++ .wrap tbl tool :: post) (l.addr + off) := by
  have e : pre ++ .wrap tbl tool :: post = (pre ++ [.wrap tbl tool]) ++ post := by simp
  obtain ⟨s1, os1, hr1⟩ := run_prefix (env := p.env) (pre ++ [.wrap tbl tool]) post
    (by rw [← e]; exact hr)
  have := C68_wrap_settles_libraries ok h hi hm hnew hpost hr1 hr hl (hasRel_of_mem hoff)
    (l.addr + off) (by
      intro l' hl' hne q hq ea
      exact hne (hown l' hl' q hq ea.symm).1)
  rw [this]
  obtain ⟨s0', os0', o, h1, h2, -⟩ := run_last hr1
  rw [hr0] at h1
  cases h1
  have h1 : s1.mem (l.addr + off) = s0.mem (l.addr + off) := by
    rw [e] at h
    rcases (step_wrap ok h.prefix.prefix hr0 hi h2 hm).1 (l.addr + off) with e | ⟨l', hl', q, hq, ea, hn⟩
    · exact e
    · exact absurd ((hown l' hl' q hq ea.symm).2 ▸ hn) hf
  unfold loaderMem at hmiss ⊢
  rw [List.foldl_append, List.foldl_cons, ← hmiss, h1]
  rfl

/-- C68 for dlopen.  An intercepted dlopen, too, settles every library that the filter lets through. -/
theorem C68_dlopen_settles_libraries {p : Process} (ok : p.Ok) {pre post : List Op} {ld : Load}
    (h : Events p False (pre ++ .dlopen ld :: post)) (hi : pre.any isApi = true)
    (hpost : ∀ t n, Op.wrap t n ∉ post) {s1 os1 s os}
    (hr1 : run p.env (pre ++ [.dlopen ld]) p.start = .ok (s1, os1))
    (hr : run p.env (pre ++ .dlopen ld :: post) p.start = .ok (s, os)) {l : Lib}
    (hl : Admitted (filterAfter pre) (libsAfter p.libs (pre ++ [.dlopen ld])) l) (hrel : HasRel l) :
    ∀ a, (∀ l', p.U l' → l' ≠ l → ∀ q ∈ rlOf l', a ≠ l'.addr + q.1) →
      s.mem a = loaderMem s1.mem post a := by
  have e : pre ++ .dlopen ld :: post = (pre ++ [.dlopen ld]) ++ post := by simp
  rw [e] at h hr
  obtain ⟨s0, os0, o, h1, h2, -⟩ := run_last hr1
  obtain ⟨hg, hlU⟩ := step_dlopen_gen ok h.prefix h1 hi h2 hl hrel
  have hpost' : ∀ o ∈ post, isWrap o = false := by
    intro o ho
    cases o with
    | wrap t n => exact absurd ho (hpost t n)
    | _ => rfl
  exact (run_frozen ok hlU post h hr1 (by simp [hi]) hr hpost' hg).2

/-- C15 for every process.  A library that has been brought up to date by a dlopen, is then unloaded
and is loaded again at the same place before the next gotcha_wrap, is not intercepted: its slots are as
the loader made them, whatever is dlopened afterwards. -/
theorem C15_reloaded_library_is_not_intercepted {p : Process} (ok : p.Ok) {pre mid post : List Op}
    {ld ld2 : Load} {op : Op} (hop : op = .dlopen ld2 ∨ op = .load ld2)
    (h : Events p False (pre ++ .dlopen ld :: (mid ++ op :: post))) (hi : pre.any isApi = true)
    (hmid : ∀ t n, Op.wrap t n ∉ mid) (hpost : ∀ t n, Op.wrap t n ∉ post) {s os}
    (hr : run p.env (pre ++ .dlopen ld :: (mid ++ op :: post)) p.start = .ok (s, os)) {l : Lib}
    (hl : Admitted (filterAfter pre) (libsAfter p.libs (pre ++ [.dlopen ld])) l)
    {off f} (hoff : (off, f) ∈ rlOf l) (hown : OnlySlot p l f (l.addr + off)) {v : Addr}
    (hv : ld2.mem (l.addr + off) = some v)
    (hlater : ∀ m, loaderMem m post (l.addr + off) = m (l.addr + off)) :
    s.mem (l.addr + off) = v := by
  have hw : ∀ t n, Op.wrap t n ∉ mid ++ op :: post := by
    intro t n hc
    rcases List.mem_append.1 hc with hc | hc
    · exact hmid t n hc
    rcases List.mem_cons.1 hc with hc | hc
    · rcases hop with e | e <;> rw [e] at hc <;> cases hc
    · exact hpost t n hc
  obtain ⟨s1, os1, hr1⟩ := run_prefix (env := p.env) (pre ++ [.dlopen ld]) (mid ++ op :: post)
    (by simpa using hr)
  have := C68_dlopen_settles_libraries ok h hi hw hr1 hr hl (hasRel_of_mem hoff) (l.addr + off) (by
    intro l' hl' hne q hq ea
    exact hne (hown l' hl' q hq ea.symm).1)
  rw [this]
  have e2 : loaderMem s1.mem (mid ++ op :: post) (l.addr + off) =
      loaderMem (fun a => loaderWord op a (loaderMem s1.mem mid a)) post (l.addr + off) := by
    unfold loaderMem
    rw [List.foldl_append, List.foldl_cons]
  rw [e2, hlater]
  rcases hop with e | e <;> rw [e] <;> show (ld2.mem (l.addr + off)).getD _ = v <;> rw [hv] <;> rfl

/-- Nothing but the loader writes to memory at these events. -/
theorem quiet_step {env : Env} {op : Op} (hw : ∀ t n, op ≠ .wrap t n) (hd : ∀ ld, op ≠ .dlopen ld)
    {s s' : State} {o} (hi : s.inited = true) (h : stepOp env op s = .ok (s', o)) :
    s'.inited = true ∧ ∀ a, s'.mem a = loaderWord op a (s.mem a) := by
  cases op with
  | wrap t n => exact absurd rfl (hw t n)
  | dlopen ld => exact absurd rfl (hd ld)
  | setPriority t v =>
    simp only [stepOp, gotchaSetPriority, gotchaInit, hi, if_true, bind, Except.bind] at h
    cases hx : s.tools.setPriority t v with
    | error e => simp [hx] at h
    | ok ts =>
      simp only [hx, Except.ok.injEq, Prod.mk.injEq] at h
      rw [← h.1]
      exact ⟨rfl, fun _ => rfl⟩
  | getPriority t =>
    simp only [stepOp, gotchaGetPriority, gotchaInit, hi, if_true, bind, Except.bind] at h
    cases hx : s.tools.getPriority t with
    | error e => simp [hx] at h
    | ok ts =>
      simp only [hx, Except.ok.injEq, Prod.mk.injEq] at h
      rw [← h.1]
      exact ⟨hi, fun _ => rfl⟩
  | setFilter f =>
    simp only [stepOp, Except.ok.injEq, Prod.mk.injEq] at h
    rw [← h.1]
    exact ⟨hi, fun _ => rfl⟩
  | load ld =>
    simp only [stepOp, Except.ok.injEq, Prod.mk.injEq] at h
    rw [← h.1]
    exact ⟨hi, fun _ => rfl⟩
  | unload dead =>
    simp only [stepOp, Except.ok.injEq, Prod.mk.injEq] at h
    rw [← h.1]
    exact ⟨hi, fun _ => rfl⟩

theorem quiet_mem {env : Env} (gap : List Op) (hw : ∀ t n, Op.wrap t n ∉ gap)
    (hd : ∀ ld, Op.dlopen ld ∉ gap) {s0 s : State} {os} (hi : s0.inited = true)
    (hr : run env gap s0 = .ok (s, os)) :
    s.inited = true ∧ ∀ a, s.mem a = loaderMem s0.mem gap a := by
  induction gap using List.reverseRecOn generalizing s os with
  | nil => cases hr; exact ⟨hi, fun _ => rfl⟩
  | append_singleton gap op ih =>
    obtain ⟨s1, os1, o, h1, h2, -⟩ := run_last hr
    obtain ⟨i1, i2⟩ := ih (fun t n ht => hw t n (by simp [ht])) (fun ld ht => hd ld (by simp [ht])) h1
    obtain ⟨j1, j2⟩ := quiet_step (fun t n e => hw t n (by simp [e]))
      (fun ld e => hd ld (by simp [e])) i1 h2
    refine ⟨j1, fun a => ?_⟩
    rw [j2, i2, loaderMem, loaderMem, List.foldl_append]
    rfl

/-- C12 and C16 in general.  A library that was closed to GOTCHA at every event up to some point
(filtered out, or not loaded) and open to it at the next gotcha_wrap for other functions, with no
gotcha_wrap or intercepted dlopen in between, is not intercepted for the functions wrapped earlier,
and the intercepted dlopens that follow do not make up for it: its slot is what the loader made it. -/
theorem C68_late_library_stays_unwrapped {p : Process} (ok : p.Ok) {pre gap post : List Op}
    {tbl : List UBinding} {tool : Option Name}
    (h : Events p False (pre ++ gap ++ .wrap tbl tool :: post))
    (hi : pre.any isApi = true) (hm : ¬ hasMain tbl) (hnew : NamesNew p (pre ++ gap) tbl)
    (hgw : ∀ t n, Op.wrap t n ∉ gap) (hgd : ∀ ld, Op.dlopen ld ∉ gap)
    (hpost : ∀ t n, Op.wrap t n ∉ post) {s os}
    (hr : run p.env (pre ++ gap ++ .wrap tbl tool :: post) p.start = .ok (s, os)) {l : Lib}
    (hrej : ∀ pre1 op pre2, pre = pre1 ++ op :: pre2 →
      ¬ Admitted (filterAfter (pre1 ++ [op])) (libsAfter p.libs (pre1 ++ [op])) l)
    (hl : Admitted (filterAfter (pre ++ gap)) (libsAfter p.libs (pre ++ gap)) l)
    {off f} (hoff : (off, f) ∈ rlOf l) (hf : f ∉ tbl.map UBinding.name)
    (hown : OnlySlot p l f (l.addr + off)) :
    s.mem (l.addr + off) =
      loaderMem p.mem (pre ++ gap ++ .wrap tbl tool :: post) (l.addr + off) := by
  obtain ⟨s0, os0, hr0⟩ := run_prefix _ _ hr
  obtain ⟨sp, osp, hrp⟩ := run_prefix _ _ hr0
  have hgap : ∃ osg, run p.env gap sp = .ok (s0, osg) := by
    have := hr0
    rw [run_append_model, hrp] at this
    simp only [bind, Except.bind] at this
    cases hg : run p.env gap sp with
    | error e => simp [hg] at this
    | ok x =>
      simp only [hg, Except.ok.injEq, Prod.mk.injEq] at this
      exact ⟨x.2, by rw [← this.1]⟩
  obtain ⟨osg, hrg⟩ := hgap
  have h0 : Events p False (pre ++ gap) := h.prefix
  have hip : sp.inited = true := by rw [run_inited ok h0.prefix hrp]; exact hi
  have hmiss : sp.mem (l.addr + off) = loaderMem p.mem pre (l.addr + off) :=
    C11_rejected_library_untouched ok h0.prefix hrp (l0 := l) (R := fun a => a = l.addr + off)
      (fun l' hl' hne q hq ea => hne (hown l' hl' q hq ea).1) hrej _ rfl
  refine C68_what_was_missed_stays_missed ok h (by simp [hi]) hm hnew hpost hr0 hr hl hoff hf hown ?_
  rw [(quiet_mem gap hgw hgd hip hrg).2, loaderMem, hmiss, loaderMem, loaderMem, List.foldl_append]

/-- C16 for every process.  An object that is loaded for the first time without GOTCHA seeing it (`load`)
and then passed over by a gotcha_wrap for other functions is never intercepted for the functions
wrapped before, whatever is dlopened afterwards. -/
theorem C16_silently_loaded_stays_unwrapped {p : Process} (ok : p.Ok) {pre gap post : List Op}
    {ld : Load} {tbl : List UBinding} {tool : Option Name}
    (h : Events p False (pre ++ .load ld :: gap ++ .wrap tbl tool :: post))
    (hi : pre.any isApi = true) (hm : ¬ hasMain tbl) (hnew : NamesNew p (pre ++ .load ld :: gap) tbl)
    (hgw : ∀ t n, Op.wrap t n ∉ gap) (hgd : ∀ ld, Op.dlopen ld ∉ gap)
    (hpost : ∀ t n, Op.wrap t n ∉ post) {s os}
    (hr : run p.env (pre ++ .load ld :: gap ++ .wrap tbl tool :: post) p.start = .ok (s, os))
    {l : Lib} (hfirst : ∀ pre1 pre2, pre = pre1 ++ pre2 → l ∉ libsAfter p.libs pre1)
    (hl : Admitted (filterAfter (pre ++ .load ld :: gap)) (libsAfter p.libs (pre ++ .load ld :: gap)) l)
    {off f} (hoff : (off, f) ∈ rlOf l) (hf : f ∉ tbl.map UBinding.name)
    (hown : OnlySlot p l f (l.addr + off)) :
    s.mem (l.addr + off) =
      loaderMem p.mem (pre ++ .load ld :: gap ++ .wrap tbl tool :: post) (l.addr + off) := by
  refine C68_late_library_stays_unwrapped ok (gap := .load ld :: gap) h hi hm hnew
    (by intro t n; simp [hgw]) (by intro ld'; simp [hgd]) hpost hr ?_ hl hoff hf hown
  rintro pre1 op pre2 rfl ⟨X, Y, e, -⟩
  exact hfirst (pre1 ++ [op]) pre2 (by simp) (by rw [e]; simp)

/-- C12 for every process.  A library kept out by the filter while functions were wrapped, and let in
again before a gotcha_wrap for other functions, is never intercepted for the earlier ones, whatever is
dlopened afterwards. -/
theorem C12_lifted_filter_comes_too_late {p : Process} (ok : p.Ok) {pre post : List Op}
    {flt : Filter} {tbl : List UBinding} {tool : Option Name}
    (h : Events p False (pre ++ [.setFilter flt] ++ .wrap tbl tool :: post))
    (hi : pre.any isApi = true) (hm : ¬ hasMain tbl)
    (hnew : NamesNew p (pre ++ [.setFilter flt]) tbl) (hpost : ∀ t n, Op.wrap t n ∉ post) {s os}
    (hr : run p.env (pre ++ [.setFilter flt] ++ .wrap tbl tool :: post) p.start = .ok (s, os))
    {l : Lib} (hrej : ∀ pre1 op pre2, pre = pre1 ++ op :: pre2 →
      ¬ Admitted (filterAfter (pre1 ++ [op])) (libsAfter p.libs (pre1 ++ [op])) l)
    (hl : Admitted flt (libsAfter p.libs pre) l)
    {off f} (hoff : (off, f) ∈ rlOf l) (hf : f ∉ tbl.map UBinding.name)
    (hown : OnlySlot p l f (l.addr + off)) :
    s.mem (l.addr + off) =
      loaderMem p.mem (pre ++ [.setFilter flt] ++ .wrap tbl tool :: post) (l.addr + off) := by
  refine C68_late_library_stays_unwrapped ok h hi hm hnew (by simp) (by simp) hpost hr hrej ?_
    hoff hf hown
  rw [filterAfter, List.foldl_append, libsAfter, List.foldl_append]
  exact hl

/-- C14 for every process.  gotcha_wrap of the first table that names "main" leaves the slots of all
other functions as they were, whatever else the table names: GOTCHA's own two calls for
__libc_start_main and main mark the libraries with the generation of the outer call, which then skips
them.  The intercepted dlopens that follow do not make up for it. -/
theorem C14_main_hides_the_rest_of_the_table {p : Process} (ok : p.Ok) {pre post : List Op}
    {tbl : List UBinding} {tool : Option Name} (h : Events p False (pre ++ .wrap tbl tool :: post))
    (hpre : ∀ o ∈ pre, ¬ hasMain (tableOf o)) (hmain : hasMain tbl)
    (hpost : ∀ t n, Op.wrap t n ∉ post) {s0 os0 s os}
    (hr0 : run p.env pre p.start = .ok (s0, os0))
    (hr : run p.env (pre ++ .wrap tbl tool :: post) p.start = .ok (s, os)) {l : Lib}
    (hl : Admitted (filterAfter pre) (libsAfter p.libs pre) l) {off f} (hoff : (off, f) ∈ rlOf l)
    (hf : f ∉ (ownTable p.env).map UBinding.name) (hown : OnlySlot p l f (l.addr + off)) :
    s.mem (l.addr + off) = loaderMem s0.mem post (l.addr + off) := by
  have e : pre ++ .wrap tbl tool :: post = (pre ++ [.wrap tbl tool]) ++ post := by simp
  rw [e] at h hr
  obtain ⟨s1, os1, hr1⟩ := run_prefix (env := p.env) (pre ++ [.wrap tbl tool]) post hr
  obtain ⟨s0', os0', o, h1, h2, -⟩ := run_last hr1
  rw [hr0] at h1
  cases h1
  have hlU : p.U l := by
    apply events_objs ok h.prefix.prefix hr0
    obtain ⟨X, Y, e, -⟩ := hl
    rw [e]; simp
  obtain ⟨hmem, hgen⟩ := step_main ok h.prefix.prefix hpre hmain hr0 h2
  have hpost' : ∀ o ∈ post, isWrap o = false := by
    intro o ho
    cases o with
    | wrap t n => exact absurd ho (hpost t n)
    | _ => rfl
  have := (run_frozen ok hlU post h hr1 (by simp [isApi]) hr hpost'
    (hgen l hl (hasRel_of_mem hoff))).2 (l.addr + off) (by
      intro l' hl' hne q hq ea
      exact hne (hown l' hl' q hq ea.symm).1)
  rw [this]
  have h1 : s1.mem (l.addr + off) = s0.mem (l.addr + off) := by
    rcases hmem (l.addr + off) with e | ⟨l', hl', q, hq, ea, hn⟩
    · exact e
    · exact absurd ((hown l' hl' q hq ea.symm).2 ▸ hn) hf
  unfold loaderMem
  rw [h1]

namespace Demo

theorem only_app : OnlySlot proc app (nm "foo") (app.addr + 0x18) := by
  rintro l (rfl | rfl | rfl) q hq e
  · rw [rl_app] at hq
    simp only [List.mem_cons, List.not_mem_nil, or_false] at hq
    rcases hq with rfl | rfl | rfl | rfl
    · exact ⟨rfl, rfl⟩
    all_goals exact absurd e (by decide)
  · rw [rl_libc] at hq; cases hq
  · rw [rl_plug, List.mem_singleton] at hq
    subst hq
    exact absurd e (by decide)

theorem only_plug : OnlySlot proc plug (nm "foo") (plug.addr + 0x18) := by
  rintro l (rfl | rfl | rfl) q hq e
  · rw [rl_app] at hq
    simp only [List.mem_cons, List.not_mem_nil, or_false] at hq
    rcases hq with rfl | rfl | rfl | rfl <;> exact absurd e (by decide)
  · rw [rl_libc] at hq; cases hq
  · rw [rl_plug, List.mem_singleton] at hq
    subst hq
    exact ⟨rfl, rfl⟩

theorem silent_events : Events proc False opsSilent :=
  ⟨⟨fun _ => dlopen_def, loadPlug_ok False, fun _ => id, fun h => (by cases h),
      noLoad_ok libs_U _ _, trivial⟩, fun h => h.elim, fun h => h.elim, fun h => h.elim,
    fun h => h.elim⟩

theorem filter_events : Events proc False opsFilter :=
  ⟨⟨fun _ => dlopen_def, fun h => (by cases h), noLoad_ok libs2_U _ _, trivial⟩, fun h => h.elim,
    fun h => h.elim, fun h => h.elim, fun h => h.elim⟩

/-- foo is wrapped, the plugin arrives unseen, bar is wrapped, something is dlopened: the plugin's
slot for foo is as before. -/
example : ∃ s os, run env opsSilent proc.start = .ok (s, os) ∧ s.mem 0x30000018 = 0 := by
  obtain ⟨s, os, hr, -⟩ := after_run silent_run
  refine ⟨s, os, hr, ?_⟩
  have := C16_silently_loaded_stays_unwrapped proc_ok (ld := loadPlug)
    (pre := [.wrap [⟨nm "foo", 0x50a, 10⟩] (some B)]) (gap := []) (post := [.dlopen noLoad])
    (tbl := [⟨nm "bar", 0x50b, 11⟩]) (tool := some A) silent_events rfl
    (notMain (by decide +kernel)) ⟨nm "bar", by simp, by decide +kernel⟩ (by simp) (by simp) (by simp)
    hr (l := plug) (by
      rintro pre1 pre2 e
      have : libsAfter proc.libs pre1 = [app, libc] := by
        match pre1, e with
        | [], _ => rfl
        | [_], e => cases e; rfl
        | _ :: _ :: _, e => simp at e
      rw [this]
      intro hc
      simp only [List.mem_cons, List.not_mem_nil, or_false] at hc
      rcases hc with hc | hc <;> exact absurd (congrArg Lib.lm hc) (by decide)) ⟨[app, libc], [], rfl, trivial⟩ slot_plug
    (by decide +kernel) only_plug
  exact this

/-- foo is wrapped under a filter that rejects everything, the filter is lifted, bar is wrapped,
something is dlopened: the application's slot for foo is as before. -/
example : ∃ s os, run env opsFilter proc.start = .ok (s, os) ∧ s.mem 0x10000018 = 0 := by
  obtain ⟨s, os, hr, -⟩ := after_run filter_run
  refine ⟨s, os, hr, ?_⟩
  have := C12_lifted_filter_comes_too_late proc_ok
    (pre := [.setFilter (.byName (some (nm "nothing"))), .wrap [⟨nm "foo", 0x50a, 10⟩] (some B)])
    (flt := .all) (post := [.dlopen noLoad]) (tbl := [⟨nm "bar", 0x50b, 11⟩]) (tool := some A)
    filter_events rfl (notMain (by decide +kernel)) ⟨nm "bar", by simp, by decide +kernel⟩ (by simp)
    hr (l := app) (by
      rintro pre1 op pre2 e ⟨X, Y, -, hl⟩
      have hflt : filterAfter (pre1 ++ [op]) = .byName (some (nm "nothing")) := by
        match pre1, e with
        | [], e => cases e; rfl
        | [_], e => cases e; rfl
        | _ :: _ :: pre1, e => simp at e
      rw [hflt] at hl
      obtain ⟨n, hn, hf⟩ := hl
      cases hn
      rw [← occursIn_iff] at hf
      revert hf
      decide +kernel) ⟨[], [libc], rfl, trivial⟩ slot_app (by decide +kernel) only_app
  exact this

/-- The plugin is loaded again with writable slots; the loader has bound foo. -/
def reloadW : Load :=
  { libs := [plug]
    mem := fun a => if a = 0x30000018 then some 0x20004000 else none
    wr := fun a => if a = 0x30000018 then some true else none }

def opsReloadW : List Op :=
  [ .wrap [⟨nm "foo", 0x50a, 10⟩] (some B), .dlopen loadPlug, .unload deadPlug, .dlopen reloadW ]

theorem reloadW_run : after env opsReloadW proc.start (fun _ => true) = true := by decide +kernel

theorem reloadW_ok : LoadsOk proc False (seenWith proc.seen loadPlug.libs) [app, libc] reloadW where
  objs := by
    intro l hl
    simp only [reloadW, List.mem_singleton] at hl
    subst hl
    exact Or.inr (Or.inr rfl)
  nd := by
    show [app.lm, libc.lm, plug.lm].Nodup
    decide
  again := by
    intro l hl _
    simp only [reloadW, List.mem_singleton] at hl
    subst hl
    refine ⟨id, ?_⟩
    intro s hs
    rw [rl_plug, List.mem_singleton] at hs
    subst hs
    rfl
  placed := placed libs_U
  old := by
    intro l hl s hs
    show (if l.addr + s.1 = 0x30000018 then some true else none) ≠ some false
    split <;> simp
  cover := by
    intro l hl s hs
    simp only [reloadW, List.mem_singleton] at hl
    subst hl
    exact Or.inr (cover_plug s hs)
  cons := fun h => h.elim
  keep := fun h => h.elim

theorem reloadW_events : Events proc False opsReloadW :=
  ⟨⟨fun _ => dlopen_def, loadPlug_ok False, Or.inl rfl, reloadW_ok, trivial⟩, fun h => h.elim,
    fun h => h.elim, fun h => h.elim, fun h => h.elim⟩

/-- foo is wrapped, the plugin is loaded, unloaded and loaded again: it calls foo directly. -/
example : ∃ s os, run env opsReloadW proc.start = .ok (s, os) ∧ s.mem 0x30000018 = 0x20004000 := by
  obtain ⟨s, os, hr, -⟩ := after_run reloadW_run
  refine ⟨s, os, hr, ?_⟩
  exact C15_reloaded_library_is_not_intercepted proc_ok (ld2 := reloadW) (Or.inl rfl)
    (pre := [.wrap [⟨nm "foo", 0x50a, 10⟩] (some B)]) (ld := loadPlug) (mid := [.unload deadPlug])
    (post := []) reloadW_events rfl (by simp) (by simp) hr (l := plug)
    ⟨[app, libc], [], rfl, trivial⟩ slot_plug only_plug rfl (fun _ => rfl)

theorem main_events : Events proc False opsMain :=
  ⟨⟨fun _ => dlopen_def, trivial⟩, fun h => h.elim, fun h => h.elim, fun h => h.elim,
    fun h => h.elim⟩

/-- main and foo in one table, in the very first call: the application's slot for foo is as before. -/
example : ∃ s os, run env opsMain proc.start = .ok (s, os) ∧ s.mem 0x10000018 = 0 := by
  obtain ⟨s, os, hr, -⟩ := after_run main_run
  refine ⟨s, os, hr, ?_⟩
  have := C14_main_hides_the_rest_of_the_table proc_ok (pre := []) (post := [])
    (tbl := [⟨nm "main", 0x50d, 13⟩, ⟨nm "foo", 0x50a, 10⟩]) (tool := some M) main_events
    (by simp) ⟨_, List.mem_cons_self, rfl⟩ (by simp) rfl hr (l := app) ⟨[], [libc], rfl, trivial⟩
    slot_app (by
      show nm "foo" ∉ [nm "dlopen", nm "dlsym", nm "__libc_start_main", nm "main"]
      decide +kernel) only_app
  exact this

end Demo

end Gotcha
