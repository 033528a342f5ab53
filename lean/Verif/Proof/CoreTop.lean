import Verif.Proof.CoreDl
/-
Whole histories: every event succeeds, keeps the invariant and is described by the abstract step.
-/
namespace Gotcha
open HTable
open Spec (exportsAt firstDef insertBefore Frame Abs)

/-- The context with the vdso that was detected. -/
abbrev Ctx.at (C : Ctx) (v : Option Addr) : Ctx := { C with v := v }

/-- Between two events. -/
def Top (C : Ctx) (seen : Lib → Prop) (n : Nat) (s : State) (A : Abs) : Prop :=
  Pre C seen s A ∨ ∃ v G, Post (C.at v) seen n s G A

/-- What GOTCHA did to the process between two states with the same objects loaded. -/
structure Eff (s s' : State) : Prop where
  linkMap : s'.linkMap = s.linkMap
  filter : s'.filter = s.filter
  mem : ∀ a, s'.mem a = s.mem a ∨ ∃ l p, Accepted s.filter s.linkMap l ∧ p ∈ rlOf l ∧
    a = l.addr + p.1 ∧ ∃ x ∈ s'.binds, x.user.name = p.2 ∧ x.user.wrapper = s'.mem a
  wr : ∀ a, s.wr a = true → s'.wr a = true
  binds : ∀ x ∈ s.binds, ∃ x' ∈ s'.binds, x'.user = x.user

theorem Eff.refl (s : State) : Eff s s :=
  ⟨rfl, rfl, fun _ => Or.inl rfl, fun _ h => h, fun x hx => ⟨x, hx, rfl⟩⟩

theorem Eff.trans {s1 s2 s3} (h1 : Eff s1 s2) (h2 : Eff s2 s3) : Eff s1 s3 where
  linkMap := h2.linkMap.trans h1.linkMap
  filter := h2.filter.trans h1.filter
  mem := by
    intro a
    rcases h2.mem a with e | ⟨l, p, e1, e2, e3, e4⟩
    · rcases h1.mem a with e' | ⟨l, p, e1, e2, e3, x, hx, e5, e6⟩
      · exact Or.inl (e.trans e')
      · obtain ⟨x', hx', hu⟩ := h2.binds x hx
        exact Or.inr ⟨l, p, e1, e2, e3, x', hx', by rw [hu]; exact e5, by rw [hu, e]; exact e6⟩
    · rw [h1.filter, h1.linkMap] at e1
      exact Or.inr ⟨l, p, e1, e2, e3, e4⟩
  wr := fun a h => h2.wr a (h1.wr a h)
  binds := by
    intro x hx
    obtain ⟨x', hx', e⟩ := h1.binds x hx
    obtain ⟨x'', hx'', e'⟩ := h2.binds x' hx'
    exact ⟨x'', hx'', e'.trans e⟩

theorem memStep_eff {C : Ctx} {flt lmap mem} {s' : State} {G' : Gh} {A : Abs} (h : Inv C s' G' A)
    (hm : MemStep flt lmap mem s'.mem s'.binds G'.ch) (a : Addr) :
    s'.mem a = mem a ∨ ∃ l p, Accepted flt lmap l ∧ p ∈ rlOf l ∧
      a = l.addr + p.1 ∧ ∃ x ∈ s'.binds, x.user.name = p.2 ∧ x.user.wrapper = s'.mem a := by
  rcases hm a with e | ⟨l, p, b, e1, e2, e3, e4, e5⟩
  · exact Or.inl e
  · obtain ⟨t, u, hb, hn⟩ := h.bind.named e4
    obtain ⟨x, hx, -, hxu⟩ := btu_get hb
    refine Or.inr ⟨l, p, e1, e2, e3, x, List.mem_of_getElem? hx, by rw [hxu]; exact hn, ?_⟩
    simp [bwr, hb] at e5
    rw [hxu]; exact e5

theorem Keep.eff {C : Ctx} {s G s' G' A'} (h : Keep C s G s' G') (hI : Inv C s' G' A') :
    Eff s s' where
  linkMap := h.linkMap
  filter := h.filter
  mem := memStep_eff hI h.mem
  wr := h.wrs
  binds := by
    intro x hx
    obtain ⟨b, hb⟩ := List.mem_iff_getElem?.1 hx
    obtain ⟨x', hx', -, e⟩ := btu_get (h.tu (btu_some hb))
    exact ⟨x', List.mem_of_getElem? hx', e⟩

theorem Post.mono {C : Ctx} {seen n n' s G A} (h : Post C seen n s G A) (hn : n ≤ n') :
    Post C seen n' s G A :=
  { h with pot := fun hs => Nat.le_trans (h.pot hs) hn }

theorem LoadOk.at {C : Ctx} {seen lm ld} (h : LoadOk C seen lm ld) (v) :
    LoadOk (C.at v) seen lm ld :=
  ⟨h.objs, h.nd, h.again, h.placed, h.old, h.cover, h.cons, h.keep⟩

theorem top_libs {C : Ctx} {seen n s A} (h : Top C seen n s A) : A.libs = s.linkMap := by
  rcases h with h | ⟨v, G, h⟩
  · rw [h.abs]; rfl
  · exact h.inv.libs

theorem top_inited {C : Ctx} {seen n s A} (h : Top C seen n s A) : A.inited = s.inited := by
  rcases h with h | ⟨v, G, h⟩
  · rw [h.abs, h.st]; rfl
  · rw [h.inv.init, h.inv.init']

theorem top_init {C : Ctx} (w : World C.env C.U) (henv : C.hon → EnvOk C.env C.P) {seen n s A}
    (hn : 3 ≤ n) (h : Top C seen n s A) :
    ∃ s' v G, gotchaInit C.env s = .ok s' ∧ Post (C.at v) seen n s' G (A.init C.env) ∧
      Eff s s' := by
  rcases h with h | ⟨v, G, h⟩
  · have h' : Pre (C.at (C.env.vdsoOf s.linkMap)) seen s A :=
      ⟨h.st, h.abs, h.objs, h.nd, h.placed, h.cover, h.ne, h.slots⟩
    obtain ⟨s', G', e1, e2, e3, e4, e5, e6⟩ := init_spec (C := C.at (C.env.vdsoOf s.linkMap)) w henv
      h' rfl
    refine ⟨s', _, G', e1, e2.mono hn, e3, e4, memStep_eff e2.inv e5, e6, ?_⟩
    intro x hx
    rw [h.st] at hx
    cases hx
  · refine ⟨s, v, G, ?_, ?_, Eff.refl s⟩
    · have : s.inited = true := h.inv.init
      simp [gotchaInit, this]
    · have : A.init C.env = A := by simp [Abs.init, h.inv.init']
      rw [this]; exact h

/-- What is assumed about an event. -/
def OpOk (C : Ctx) (seen : Lib → Prop) (A : Abs) : Op → Prop
  | .wrap tbl tool =>
    (C.hon → HonA C.env C.P (A.init C.env) tbl) ∧ (C.sl → MainOk (A.init C.env) tbl tool)
  | .setPriority _ _ => True
  | .getPriority _ => True
  | .setFilter f => C.sl → Admits f C.good
  | .dlopen ld =>
    LoadOk C seen A.libs ld ∧ (C.hon → A.inited = true → A.real (nm "dlopen") ≠ none)
  | .load ld => LoadOk C seen A.libs ld ∧
    (A.inited = true → C.sl → ∀ l ∈ ld.libs, ¬ C.good l)
  | .unload dead => A.inited = true ∨ A.libs.filter (fun l => !dead l.lm) ≠ []

/-- The link maps used after an event. -/
def seenAfter (seen : Lib → Prop) : Op → Lib → Prop
  | .dlopen ld => seenWith seen ld.libs
  | .load ld => seenWith seen ld.libs
  | _ => seen

/-- The loader's part of an event. -/
def loaderPart (s : State) : Op → State
  | .setFilter f => { s with filter := f }
  | .dlopen ld => s.load ld
  | .load ld => s.load ld
  | .unload dead => s.unload dead
  | _ => s

theorem wchain_some {wr wp} {L : List BId} {r : Addr} (h : WChain wr wp L (some r))
    (hw : ∀ b ∈ L, ∃ a, wr b = some a) : ∀ b ∈ L, ∃ a, wp b = some (some a) := by
  induction L with
  | nil => intro b hb; cases hb
  | cons c L ih =>
    intro b hb
    rcases List.mem_cons.1 hb with rfl | hb
    · cases L with
      | nil => exact ⟨r, h.1⟩
      | cons d L =>
        obtain ⟨a, ha⟩ := hw d (by simp)
        exact ⟨a, by rw [h.1]; simp [nextVal, ha]⟩
    · exact ih h.2 (fun b hb => hw b (List.mem_cons_of_mem _ hb)) b hb

theorem getWrappee_of {s : State} {h : HAddr} {b : BId} {a : Addr} (h1 : s.handles h = some b)
    (h2 : bwp s.binds b = some (some a)) : s.getWrappee h = .ok a := by
  unfold bwp at h2
  cases hx : s.binds[b]? with
  | none => simp [hx] at h2
  | some x =>
    simp [hx] at h2
    simp [State.getWrappee, h1, State.bind, hx, h2]

theorem dl_wrappee {C : Ctx} {seen n s G A} (h : Post C seen n s G A) (hh : C.hon)
    {u : UBinding} (hu : u ∈ dlTable C.env) (hr : A.real u.name ≠ none) :
    ∃ a, s.getWrappee u.handle = .ok a := by
  obtain ⟨b, t, hb⟩ := h.dlb u hu
  have hH := h.inv.hon hh
  rcases h.inv.onch hh b (btu_lt hb) with hx | ⟨f, hf⟩
  · exact absurd hx (h.pend b)
  · obtain ⟨t', u', hb', hn⟩ := h.inv.bind.named hf
    rw [hb] at hb'
    cases hb'
    subst hn
    obtain ⟨r, hr⟩ := Option.ne_none_iff_exists'.1 hr
    have hw := hH.wch u.name
    rw [← h.inv.real hh, hr] at hw
    obtain ⟨a, ha⟩ := wchain_some hw (by
      intro c hc
      obtain ⟨t2, u2, e, -⟩ := h.inv.bind.named hc
      exact ⟨u2.wrapper, by simp [bwr, e]⟩) b hf
    exact ⟨a, getWrappee_of (hH.own hb) ha⟩

theorem pre_load {C : Ctx} {seen s A} (h : Pre C seen s A) {ld : Load}
    (hld : LoadOk C seen s.linkMap ld) :
    Pre C (seenWith seen ld.libs) (s.load ld) { A with libs := A.libs ++ ld.libs } where
  st := by
    have := h.st
    generalize hm : s.linkMap = lm at this
    rw [this]; rfl
  abs := by rw [h.abs]; rfl
  objs := by
    intro l hl
    rcases List.mem_append.1 hl with hl | hl
    · exact ⟨(h.objs l hl).1, Or.inl (h.objs l hl).2⟩
    · exact ⟨hld.objs l hl, Or.inr hl⟩
  nd := hld.nd
  placed := hld.placed
  cover := by
    intro l hl p hp
    rcases List.mem_append.1 hl with hl | hl
    · rcases h.cover l hl p hp with hx | hx
      · exact Or.inl (wr_load hld hl hp hx)
      · exact Or.inr hx
    · rcases hld.cover l hl p hp with hx | hx
      · left; show (ld.wr _).getD _ = true; rw [hx]; rfl
      · exact Or.inr hx
  ne := by
    intro hc
    exact h.ne (List.append_eq_nil_iff.1 hc).1
  slots := fun hs => ⟨(h.slots hs).1, hld.cons hs⟩

theorem pre_unload {C : Ctx} {seen s A} (h : Pre C seen s A) {dead : Addr → Bool}
    (hne : s.linkMap.filter (fun l => !dead l.lm) ≠ []) :
    Pre C seen (s.unload dead) { A with libs := A.libs.filter (fun l => !dead l.lm) } := by
  have hsub : ∀ {l}, l ∈ (s.unload dead).linkMap → l ∈ s.linkMap :=
    fun hl => (List.mem_filter.1 hl).1
  refine ⟨?_, by rw [h.abs]; rfl, fun l hl => h.objs l (hsub hl), ?_,
    fun l hl o ho => h.placed l (hsub hl) o (hsub ho), fun l hl => h.cover l (hsub hl), hne,
    fun hs => ⟨(h.slots hs).1, fun l hl l' hl' => (h.slots hs).2 l (hsub hl) l' (hsub hl')⟩⟩
  · have := h.st
    generalize hm : s.linkMap = lm at this
    rw [this]; rfl
  · have : ((s.unload dead).linkMap.map (·.lm)).Sublist (s.linkMap.map (·.lm)) :=
      List.Sublist.map _ List.filter_sublist
    exact this.nodup h.nd

/-- One event.  `hdl`: a dlopen that reaches GOTCHA's wrapper finds a function to call. -/
theorem step_spec {C : Ctx} (w : World C.env C.U) (henv : C.hon → EnvOk C.env C.P) {seen n s A}
    (hn : 3 ≤ n) (h : Top C seen n s A) {op : Op} (hop : OpOk C seen A op)
    (hsl : C.sl → n + 1 < 2 ^ 32)
    (hdl : ¬ C.hon → (∃ ld, op = .dlopen ld) → s.inited = true →
      ∃ a, s.getWrappee C.env.hDlopen = .ok a) :
    ∃ s' o, stepOp C.env op s = .ok (s', o) ∧
      Top C (seenAfter seen op) (n + 1) s' (A.step C.env op).1 ∧
      (C.hon → o = (A.step C.env op).2) ∧ Eff (loaderPart s op) s' := by
  cases op with
  | wrap tbl tool =>
    obtain ⟨s1, v, G1, e1, e2, e3⟩ := top_init w henv hn h
    obtain ⟨s2, G2, c, f1, f2, f3, f4⟩ := wrap_post (C := C.at v) w henv e2 tbl tool hop.1 hop.2 hsl
    refine ⟨s2, .ret c, ?_, Or.inr ⟨v, G2, f2⟩, ?_, e3.trans (f4.eff f2.inv)⟩
    · simp only [stepOp, gotchaWrap, e1, bind, Except.bind, f1]
    · intro hh; rw [f3 hh]; rfl
  | setPriority t x =>
    obtain ⟨s1, v, G1, e1, e2, e3⟩ := top_init w henv hn h
    obtain ⟨ts, f1, f2⟩ := setPriority_post e2 t x
    refine ⟨_, .unit, ?_, Or.inr ⟨v, G1, f2.mono (by omega)⟩, fun _ => rfl,
      ⟨e3.linkMap, e3.filter, e3.mem, e3.wr, e3.binds⟩⟩
    simp only [stepOp, gotchaSetPriority, e1, bind, Except.bind, f1]
  | getPriority t =>
    obtain ⟨s1, v, G1, e1, e2, e3⟩ := top_init w henv hn h
    have f1 := getPriority_post e2 t
    refine ⟨s1, .prio ((A.init C.env).prio t), ?_, Or.inr ⟨v, G1, e2.mono (by omega)⟩, fun _ => rfl,
      e3⟩
    simp only [stepOp, gotchaGetPriority, e1, bind, Except.bind, f1]
  | setFilter f =>
    refine ⟨_, .unit, rfl, ?_, fun _ => rfl, Eff.refl _⟩
    rcases h with h | ⟨v, G, h⟩
    · left
      refine ⟨?_, h.abs, h.objs, h.nd, h.placed, h.cover, h.ne,
        fun hs => ⟨hop hs, (h.slots hs).2⟩⟩
      have := h.st
      generalize hm : s.linkMap = lm at this
      rw [this]; rfl
    · right
      exact ⟨v, G, (setFilter_post h f hop).mono (by omega)⟩
  | dlopen ld =>
    obtain ⟨hld, hreal⟩ := hop
    rw [top_libs h] at hld
    rcases h with h | ⟨v, G, h⟩
    · have hs : s.inited = false := by rw [h.st]; rfl
      have hA : A.inited = false := by rw [h.abs]; rfl
      refine ⟨s.load ld, .unit, by simp [stepOp, hs], ?_, ?_, Eff.refl _⟩
      · left
        have hp := pre_load h hld
        simp only [Abs.step, if_neg (show ¬ A.inited = true by rw [hA]; simp)]
        exact hp
      · intro _; simp [Abs.step, hA]
    · have hs : s.inited = true := h.inv.init
      have hA : A.inited = true := h.inv.init'
      obtain ⟨s', G', e1, e2, e3⟩ := dlopen_post (C := C.at v) w h (hld.at v) (by
        by_cases hh : C.hon
        · exact dl_wrappee h hh (u := ⟨nm "dlopen", C.env.dlopenW, C.env.hDlopen⟩)
            (by simp [dlTable]) (hreal hh hA)
        · exact hdl hh ⟨ld, rfl⟩ hs)
      refine ⟨s', .unit, ?_, ?_, ?_, e3.eff e2.inv⟩
      · simp only [stepOp, hs, if_true, e1, bind, Except.bind]
      · right
        simp only [Abs.step, hA, if_true]
        exact ⟨v, G', e2.mono (by omega)⟩
      · intro _; simp [Abs.step, hA]
  | load ld =>
    obtain ⟨hld, hni⟩ := hop
    rw [top_libs h] at hld
    refine ⟨s.load ld, .unit, rfl, ?_, fun _ => rfl, Eff.refl _⟩
    rcases h with h | ⟨v, G, h⟩
    · left; exact pre_load h hld
    · right
      exact ⟨v, _, (load_post h (hld.at v) (hni h.inv.init')).mono (by omega)⟩
  | unload dead =>
    refine ⟨s.unload dead, .unit, rfl, ?_, fun _ => rfl, Eff.refl _⟩
    have hl := top_libs h
    rcases h with h | ⟨v, G, h⟩
    · left
      refine pre_unload h ?_
      rcases hop with hop | hop
      · rw [h.abs] at hop; cases hop
      · rw [hl] at hop; exact hop
    · right
      exact ⟨v, _, (unload_post h dead).mono (by omega)⟩

/-- What is assumed about a history. -/
def Valid (C : Ctx) (seen : Lib → Prop) (A : Abs) : List Op → Prop
  | [] => True
  | op :: ops =>
    OpOk C seen A op ∧ Valid C (seenAfter seen op) (A.step C.env op).1 ops

def seenRun (seen : Lib → Prop) : List Op → Lib → Prop
  | [] => seen
  | op :: ops => seenRun (seenAfter seen op) ops

/-- Every valid history of clients using one handle per binding runs to its end without fault, with
the observations and the final state of the specification. -/
theorem run_spec {C : Ctx} (w : World C.env C.U) (henv : EnvOk C.env C.P) (hon : C.hon)
    (ops : List Op) : ∀ {seen n s A}, 3 ≤ n → Top C seen n s A → Valid C seen A ops →
    (C.sl → n + ops.length < 2 ^ 32) →
    ∃ s', run C.env ops s = .ok (s', (Abs.run C.env ops A).2) ∧
      Top C (seenRun seen ops) (n + ops.length) s' (Abs.run C.env ops A).1 := by
  induction ops with
  | nil => intro seen n s A _ h _ _; exact ⟨s, rfl, h⟩
  | cons op ops ih =>
    intro seen n s A hn h hv hsl
    simp only [List.length_cons] at hsl
    obtain ⟨s1, o, e1, e2, e3, -⟩ := step_spec w (fun _ => henv) hn h hv.1
      (fun hs => by have := hsl hs; omega) (fun hc => absurd hon hc)
    obtain ⟨s2, f1, f2⟩ := ih (by omega) e2 hv.2 (fun hs => by have := hsl hs; omega)
    refine ⟨s2, ?_, ?_⟩
    · simp only [run, e1, bind, Except.bind, f1, Abs.run, e3 hon]
    · rw [List.length_cons, show n + (ops.length + 1) = n + 1 + ops.length by omega]
      exact f2

/-- For arbitrary clients: as long as the history runs, the invariant holds. -/
theorem run_inv {C : Ctx} (w : World C.env C.U) (hh : ¬ C.hon) (ops : List Op) :
    ∀ {seen n s A s' os}, 3 ≤ n → Top C seen n s A → Valid C seen A ops →
    (C.sl → n + ops.length < 2 ^ 32) → run C.env ops s = .ok (s', os) →
    Top C (seenRun seen ops) (n + ops.length) s' (Abs.run C.env ops A).1 := by
  induction ops with
  | nil => intro seen n s A s' os _ h _ _ hr; cases hr; exact h
  | cons op ops ih =>
    intro seen n s A s' os hn h hv hsl hr
    simp only [List.length_cons] at hsl
    cases hst : stepOp C.env op s with
    | error e => simp [run, hst, bind, Except.bind] at hr
    | ok y =>
      obtain ⟨s1', o'⟩ := y
      obtain ⟨s1, o, e1, e2, -, -⟩ := step_spec w (fun hc => absurd hc hh) hn h hv.1
        (fun hs => by have := hsl hs; omega) (by
          rintro - ⟨ld, rfl⟩ hin
          simp only [stepOp, hin, if_true, dlopenWrapper, bind, Except.bind] at hst
          cases hg : s.getWrappee C.env.hDlopen with
          | error e => simp [hg] at hst
          | ok a => exact ⟨a, rfl⟩)
      simp only [run, e1, bind, Except.bind] at hr
      cases hrr : run C.env ops s1 with
      | error e => simp [hrr] at hr
      | ok z =>
        obtain ⟨s2, os2⟩ := z
        simp only [hrr] at hr
        cases hr
        rw [List.length_cons, show n + (ops.length + 1) = n + 1 + ops.length by omega]
        exact ih (by omega) e2 hv.2 (fun hs => by have := hsl hs; omega) hrr

end Gotcha
