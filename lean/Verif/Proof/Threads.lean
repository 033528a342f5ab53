import Verif.Spec.Threads
import Verif.Proof.TraceMany
import Verif.Proof.Skip
/-
Several threads in gotcha_wrap and dlopen: the invariant.
-/
namespace Gotcha
open HTable
open Spec (exportsAt firstDef insertBefore Frame Abs Job part asOps toolName reopen)

/-! ### abstract states that differ in registered tools only -/

structure Alike (A B : Abs) : Prop where
  stack : A.stack = B.stack
  real : A.real = B.real
  prio : ∀ n, A.prioOf n = B.prioOf n
  libs : A.libs = B.libs
  vdso : A.vdso = B.vdso
  inited : A.inited = B.inited
  mainW : A.mainWrapped = B.mainWrapped

theorem Alike.refl (A : Abs) : Alike A A := ⟨rfl, rfl, fun _ => rfl, rfl, rfl, rfl, rfl⟩

theorem Alike.symm {A B : Abs} (h : Alike A B) : Alike B A :=
  ⟨h.stack.symm, h.real.symm, fun n => (h.prio n).symm, h.libs.symm, h.vdso.symm, h.inited.symm,
    h.mainW.symm⟩

theorem Alike.touch {A B : Abs} (h : Alike A B) (t : Name) : Alike (A.touch t) B :=
  ⟨h.stack, h.real, fun n => by rw [touch_prioOf]; exact h.prio n, h.libs, h.vdso, h.inited, h.mainW⟩

theorem Alike.push {A B : Abs} (h : Alike A B) (tool p u) :
    Alike (A.push tool p u).1 (B.push tool p u).1 ∧ (A.push tool p u).2 = (B.push tool p u).2 := by
  have hr : A.resolve u.name = B.resolve u.name := by unfold Abs.resolve; rw [h.libs, h.vdso]
  have hst : A.stack u.name = B.stack u.name := by rw [h.stack]
  have hpr : A.prioOf = B.prioOf := funext h.prio
  cases hs : B.stack u.name with
  | nil =>
    rw [hs] at hst
    simp only [Abs.push, hs, hst, hr, and_true]
    exact ⟨by simp only [h.stack], by simp only [h.real], h.prio, h.libs, h.vdso, h.inited, h.mainW⟩
  | cons c st =>
    rw [hs] at hst
    simp only [Abs.push, hs, hst, and_true]
    exact ⟨by simp only [h.stack, hpr], h.real, h.prio, h.libs, h.vdso, h.inited, h.mainW⟩

theorem Alike.pushAll {om : Abs → Abs} (hom : ∀ {A B}, Alike A B → Alike (om A) (om B)) (tool : Name)
    (us : List UBinding) : ∀ {A B : Abs}, Alike A B →
      Alike (Abs.pushAll om tool us A).1 (Abs.pushAll om tool us B).1 ∧
        (Abs.pushAll om tool us A).2 = (Abs.pushAll om tool us B).2 := by
  induction us with
  | nil => intro A B h; exact ⟨h, rfl⟩
  | cons u us ih =>
    intro A B h
    have h1 : Alike (if u.name = nm "main" then om A else A)
        (if u.name = nm "main" then om B else B) := by
      split
      · exact hom h
      · exact h
    obtain ⟨h2, h3⟩ := h1.push tool (A.prioOf tool) u
    simp only [Abs.pushAll]
    rw [← h.prio tool, ← h3, (ih h2).2]
    exact ⟨(ih h2).1, rfl⟩

theorem Alike.wrap {om : Abs → Abs} (hom : ∀ {A B}, Alike A B → Alike (om A) (om B)) (tbl tool)
    {A B : Abs} (h : Alike A B) : Alike (Abs.wrap om tbl tool A).1 (Abs.wrap om tbl tool B).1 := by
  unfold Abs.wrap
  exact (Alike.pushAll hom _ _ (((h.touch _).symm.touch _).symm)).1

theorem Alike.onMain (env : Env) {A B : Abs} (h : Alike A B) :
    Alike (A.onMain env) (B.onMain env) := by
  unfold Abs.onMain
  rw [h.mainW]
  split
  · exact h
  · refine Alike.wrap (om := id) (fun hx => hx) _ _ (Alike.wrap (om := id) (fun hx => hx) _ _ ?_)
    exact ⟨h.stack, h.real, h.prio, h.libs, h.vdso, h.inited, rfl⟩

theorem Alike.step {env : Env} {A B : Abs} (h : Alike A B) (hi : B.inited = true) (u : UBinding)
    (tool : Option Name) :
    Alike (Abs.pushAll (Abs.onMain env) (toolName tool) [u] A).1
      (B.step env (.wrap [u] tool)).1 := by
  have : B.init env = B := by simp [Abs.init, hi]
  simp only [Abs.step, this, Abs.wrap]
  exact (Alike.pushAll (Alike.onMain env) _ _ ((h.symm.touch _).symm)).1

theorem Alike.load {A B : Abs} (h : Alike A B) (env : Env) (ld : Load) :
    Alike { A with libs := A.libs ++ ld.libs } (B.step env (.load ld)).1 :=
  ⟨h.stack, h.real, h.prio, by show _ = B.libs ++ _; rw [← h.libs], h.vdso, h.inited, h.mainW⟩

theorem Alike.reopen {A B : Abs} (h : Alike A B) (env : Env) (hi : B.inited = true) :
    Alike (A.dlopen []) (B.step env reopen).1 := by
  unfold Spec.reopen
  rw [Spec.step_dlopen, if_pos hi]
  refine ⟨h.stack, ?_, h.prio, ?_, h.vdso, h.inited, h.mainW⟩
  · show (fun f => if A.stack f ≠ [] ∧ A.real f = none then _ else A.real f) =
      (fun f => if B.stack f ≠ [] ∧ B.real f = none then _ else B.real f)
    funext f
    simp only [Abs.resolve, h.stack, h.real, h.libs, h.vdso]
  · show A.libs ++ [] = B.libs ++ []
    rw [h.libs]

/-! ### the parts of gotcha_wrap -/

theorem inv_dirty {C : Ctx} (hs : ¬ C.sl) {s G A} (h : Inv C s G A) (D : Name → Prop) :
    Inv C s { G with dirty := D } A :=
  { h with slots := fun hx => absurd hx hs }

/-- One library of a pass. -/
theorem lib_inv {C : Ctx} (w : World C.env C.U) (hs : ¬ C.sl) {s : State} {G : Gh} {A : Abs}
    {t : HTable Name BId} {m} (h : Inv C s G A) (ht : TabMap strhash t m)
    (hm : ∀ f b, m f = some b → b ∈ G.ch f) {l : Lib} {ls : List Lib}
    (hl : l :: ls <:+ s.linkMap) :
    ∃ s' G', s.updateLib C.env t l (!ls.isEmpty) = .ok s' ∧ Inv C s' G' A ∧ Keep C s G s' G' ∧
      G'.pend = G.pend ∧ s'.binds = s.binds ∧ s'.gen = s.gen ∧
      (∀ a, genAt s.libs G.lm a = s.gen → genAt s'.libs G'.lm a = s.gen) ∧
      (s.filter.accepts l (!ls.isEmpty) = .ok true → HasRel l → genAt s'.libs G'.lm l = s.gen) ∧
      (∀ a, s'.mem a = s.mem a ∨ (Accepted s.filter s.linkMap l ∧ genAt s.libs G.lm l ≠ s.gen ∧
        ∃ q ∈ rlOf l, a = l.addr + q.1 ∧ (m q.2).isSome)) ∧
      (∀ a, genAt s'.libs G'.lm a = genAt s.libs G.lm a ∨ genAt s'.libs G'.lm a = s.gen) := by
  have hbd : ∀ f b, m f = some b → b < s.binds.length := by
    intro f b hb
    obtain ⟨t, u, e, -⟩ := h.bind.named (hm f b hb)
    exact btu_lt e
  obtain ⟨X, hX⟩ := hl
  have hlm : l ∈ s.linkMap := by rw [← hX]; simp
  obtain ⟨tl, libs', lm', wr', mem', hL, hW, hwr, hoth, hrs, hmk, hmem, he⟩ :=
    updateLib_spec w ht h.lib h.wr (fun o ho => (h.objs o ho).1) h.placed hbd hlm (h.objs l hlm).2
      (!ls.isEmpty)
  have hmem' : ∀ a, mem' a = s.mem a ∨ (Accepted s.filter s.linkMap l ∧
      genAt s.libs G.lm l ≠ s.gen ∧ ∃ q ∈ rlOf l, a = l.addr + q.1 ∧
        wOf s.binds m q.2 = some (mem' a)) := by
    intro a
    rw [hmem]
    split
    · rename_i hp
      rcases patch_or (wOf s.binds m) l.addr (rlOf l) s.mem a with e | ⟨q, hq, e1, e2⟩
      · exact Or.inl e
      · right
        unfold processed at hp
        simp only [Bool.and_eq_true, Bool.not_eq_true', decide_eq_false_iff_not] at hp
        refine ⟨⟨X, ls, hX.symm, ?_⟩, hp.2, q, hq, e1, e2⟩
        have := hp.1
        cases ha : s.filter.accepts l (!ls.isEmpty) with
        | error e => rw [ha] at this; cases this
        | ok b => rw [ha] at this; exact congrArg _ this
    · exact Or.inl rfl
  have hwof : ∀ f, wOf s.binds m f = (m f).bind (bwr s.binds) := by
    intro f; simp only [wOf, wrapperOf_eq]
  refine ⟨_, { G with lm := lm' }, he, ?_, ?_, rfl, rfl, rfl, ?_, ?_, ?_, ?_⟩
  · exact
      { tools := h.tools
        bind := h.bind
        fn := h.fn
        nf := h.nf
        nfm := h.nfm
        lib := hL
        wr := hW
        objs := h.objs
        nd := h.nd
        placed := h.placed
        vd := h.vd
        hon := h.hon
        nfr := h.nfr
        fresh := h.fresh
        onch := h.onch
        slots := fun hx => absurd hx hs
        prio := h.prio
        stack := h.stack
        real := h.real
        libs := h.libs
        vdso := h.vdso
        mainW := h.mainW
        init := h.init
        init' := h.init' }
  · refine ⟨rfl, fun hy => hy, List.prefix_refl _, fun hy => ⟨_, hy, Int.le_refl _⟩, fun hy => hy,
      rfl, rfl, fun hy => hy, fun _ => rfl, ?_, hwr, fun _ => Nat.le_refl _⟩
    intro a
    rcases hmem' a with e | ⟨e1, -, q, hq, e2, e3⟩
    · exact Or.inl e
    · right
      rw [hwof] at e3
      cases hmq : m q.2 with
      | none => rw [hmq] at e3; cases e3
      | some b =>
        rw [hmq] at e3
        exact ⟨l, q, b, e1, hq, e2, hm _ _ hmq, e3⟩
  · intro a ha
    by_cases e : a = l
    · subst e
      unfold genAt at ha ⊢
      rcases hrs with e | ⟨x, e, e' | e'⟩
      · rw [e]; exact ha
      · rw [e]; exact e'
      · rw [e]; exact e'.trans ha
    · unfold genAt at ha ⊢
      rw [hoth a e]; exact ha
  · intro h1 h2
    exact hmk h1 h2
  · intro a
    rcases hmem' a with e | ⟨e1, e4, q, hq, e2, e3⟩
    · exact Or.inl e
    · refine Or.inr ⟨e1, e4, q, hq, e2, ?_⟩
      rw [hwof] at e3
      cases hmq : m q.2 with
      | none => rw [hmq] at e3; cases e3
      | some b => rfl
  · intro a
    by_cases e : a = l
    · subst e
      unfold genAt
      rcases hrs with e | ⟨x, e, e' | e'⟩
      · rw [e]; exact Or.inl rfl
      · rw [e]; exact Or.inr e'
      · rw [e]; exact Or.inl e'
    · unfold genAt
      rw [hoth a e]; exact Or.inl rfl

/-! ### one thread -/

def todoOf : Thread → List BId
  | .bind _ todo _ _ => todo
  | _ => []

/-- What a thread needs of the others: bindings, tools and chains are only added to. -/
structure Carry (s : State) (G : Gh) (s' : State) (G' : Gh) : Prop where
  tu : ∀ {b y}, btu s.binds b = some y → btu s'.binds b = some y
  np : Tools.np s.tools.store <+: Tools.np s'.tools.store
  heads : ∀ {f h}, (G.ch f).head? = some h → ∃ h', (G'.ch f).head? = some h' ∧
    prB s.binds (Tools.np s.tools.store) h ≤ prB s'.binds (Tools.np s'.tools.store) h'
  chs : ∀ {f b}, b ∈ G.ch f → b ∈ G'.ch f

theorem Keep.carry {C : Ctx} {s G s' G'} (h : Keep C s G s' G') : Carry s G s' G' :=
  ⟨h.tu, h.np, h.heads, h.chs⟩

theorem NbEnt.carry {s G s' G' p m} (h : NbEnt s G p m) (hk : Carry s G s' G') : NbEnt s' G' p m := by
  intro f b hb
  obtain ⟨h1, hd, h2, h3⟩ := h f b hb
  obtain ⟨hd', h4, h5⟩ := hk.heads h2
  exact ⟨hk.chs h1, hd', h4, Int.le_trans h3 h5⟩

/-- What is known about a thread with job `job`, the parts `done` of which are done. -/
def TOk (s : State) (G : Gh) (job : Job) (done : List Op) : Thread → Prop
  | .call tbl tool => job = .wrap tbl tool ∧ done = [] ∧
      ∀ b t u, btu s.binds b = some (t, u) → u.handle ∉ job.table.map UBinding.handle
  | .bind n todo nb _ => ∃ table tool tid p dn us m, job = .wrap table tool ∧
      done = dn.map (fun u => .wrap [u] tool) ∧ dn ++ us = table ∧ (todo ≠ [] → 0 < n) ∧ todo.Nodup ∧
      todo.map (btu s.binds) = us.map (fun u => some (tid, u)) ∧ (∀ b ∈ todo, G.pend b) ∧
      (Tools.np s.tools.store)[tid]? = some (toolName tool, p) ∧ NbOk nb m ∧ NbEnt s G p m ∧
      ∀ f, (m f).isSome → f ∈ table.map UBinding.name
  | .write t _ _ => ∃ table tool, job = .wrap table tool ∧ done = job.parts ∧ ∃ m, TabMap strhash t m ∧
      (∀ f b, m f = some b → b ∈ G.ch f) ∧ ∀ f, (m f).isSome → f ∈ table.map UBinding.name
  | .ret _ => (∃ table tool, job = .wrap table tool) ∧ done = job.parts
  | .dlcall ld => job = .dlopen ld ∧ done = []
  | .dlscan => ∃ ld, job = .dlopen ld ∧ done = [.load ld]
  | .dlwrite _ => (∃ ld, job = .dlopen ld) ∧ done = job.parts
  | .dlret => (∃ ld, job = .dlopen ld) ∧ done = job.parts

theorem TOk.carry {s G s' G' job done t} (h : TOk s G job done t) (hk : Carry s G s' G')
    (hp : ∀ b ∈ todoOf t, G.pend b → G'.pend b)
    (hn : ∀ b t u, btu s'.binds b = some (t, u) → btu s.binds b = some (t, u) ∨
      u.handle ∉ job.table.map UBinding.handle) : TOk s' G' job done t := by
  cases t with
  | call tbl tool =>
    obtain ⟨h1, h3, h4⟩ := h
    refine ⟨h1, h3, ?_⟩
    intro b t u hb
    rcases hn b t u hb with hx | hx
    · exact h4 b t u hx
    · exact hx
  | bind n todo nb nf =>
    obtain ⟨tbl, tool, tid, p, dn, us, m, h01, h02, h1, h2, h3, h4, h5, h6, h7, h8, h9⟩ := h
    refine ⟨tbl, tool, tid, p, dn, us, m, h01, h02, h1, h2, h3, ?_, fun b hb => hp b hb (h5 b hb), ?_, h7,
      h8.carry hk, h9⟩
    · rw [← h4]
      apply List.map_congr_left
      intro b hb
      have : btu s.binds b ∈ us.map (fun u => some (tid, u)) := by
        rw [← h4]; exact List.mem_map_of_mem hb
      obtain ⟨u, -, e⟩ := List.mem_map.1 this
      rw [← e]
      exact hk.tu e.symm
    · obtain ⟨z, hz⟩ := hk.np
      rw [← hz, List.getElem?_append_left (List.getElem?_eq_some_iff.1 h6).1, h6]
  | write t i nf =>
    obtain ⟨tbl, tool, h1, h2, m, h3, h4, h5⟩ := h
    exact ⟨tbl, tool, h1, h2, m, h3, fun f b hb => hk.chs (h4 f b hb), h5⟩
  | ret c => exact h
  | dlcall ld => exact h
  | dlscan => exact h
  | dlwrite i => exact h
  | dlret => exact h

/-- The calls are those of honest clients. -/
structure JobsOk (C : Ctx) (jobs : List Job) : Prop where
  nd : ∀ j ∈ jobs, (j.table.map UBinding.handle).Nodup
  disj : ∀ (i k : Nat) (j j' : Job), i ≠ k → jobs[i]? = some j → jobs[k]? = some j' → ∀ u ∈ j.table,
    u.handle ∉ j'.table.map UBinding.handle
  prog : ∀ j ∈ jobs, ∀ u ∈ j.table, C.P u.wrapper = some u.handle
  own : ∀ j ∈ jobs, ∀ u ∈ j.table, u.handle ≠ C.env.hLibcMain ∧ u.handle ≠ C.env.hMain

/-- The thread has not started. -/
def isCall : Thread → Prop
  | .call _ _ => True
  | .dlcall _ => True
  | _ => False

/-- The table does not name "main". -/
def noMain (j : Job) : Prop := ∀ u ∈ j.table, u.name ≠ nm "main"

/-- The thread is in `update_all_library_gots`, at position `i`. -/
def writesAt (i : Nat) : Thread → Prop
  | .write _ k _ => k = i
  | .dlwrite k => k = i
  | _ => False

/-- May the thread write slots of `f`? -/
def mayWrite (job : Job) (G : Gh) (f : Name) : Thread → Prop
  | .write _ _ _ => f ∈ job.table.map UBinding.name ∧ G.ch f ≠ []
  | .dlwrite _ => G.ch f ≠ []
  | _ => False

/-- What a part of a thread does to the state. -/
structure TStep (job : Job) (t : Thread) (s : State) (G : Gh) (s' : State) (G' : Gh) : Prop where
  grow : s.linkMap <+: s'.linkMap
  linkMap : (∀ ld, t ≠ .dlcall ld) → s'.linkMap = s.linkMap
  filter : s'.filter = s.filter
  gen : noMain job → ¬ isCall t → s'.gen = s.gen
  gens : noMain job → ¬ isCall t → ∀ a, genAt s.libs G.lm a = s.gen → genAt s'.libs G'.lm a = s.gen
  mark : ∀ i l ls, writesAt i t → s.linkMap.drop i = l :: ls →
    s.filter.accepts l (!ls.isEmpty) = .ok true → HasRel l → genAt s'.libs G'.lm l = s.gen
  mem : noMain job → ∀ a, s'.mem a = s.mem a ∨ (∃ l, Accepted s.filter s.linkMap l ∧
    genAt s.libs G.lm l ≠ s.gen ∧ ∃ q ∈ rlOf l, a = l.addr + q.1 ∧ mayWrite job G q.2 t) ∨
    ∃ ld, t = .dlcall ld ∧ ld.mem a ≠ none
  recs : noMain job → ∀ a, genAt s'.libs G'.lm a = genAt s.libs G.lm a ∨ genAt s'.libs G'.lm a = s.gen
  calls : isCall t → s'.gen = s.gen + 1 ∨ s'.gen = s.gen

theorem TStep.lm {job t s G s' G'} (h : TStep job t s G s' G') (hc : ¬ isCall t) :
    s'.linkMap = s.linkMap :=
  h.linkMap (by rintro ld rfl; exact hc trivial)

theorem TStep.refl {job t s} (G : Gh) (h : ∀ i, writesAt i t → s.linkMap.drop i = []) :
    TStep job t s G s G :=
  ⟨List.prefix_refl _, fun _ => rfl, rfl, fun _ _ => rfl, fun _ _ _ hx => hx,
    fun i l ls h1 h2 => (by rw [h i h1] at h2; cases h2), fun _ a => Or.inl rfl, fun _ a => Or.inl rfl,
    fun _ => Or.inr rfl⟩

/-- A part of a thread loads nothing, or it is the real dlopen. -/
def Moves (C : Ctx) (t : Thread) (s : State) (G : Gh) (s' : State) (G' : Gh) : Prop :=
  (Keep C s G s' G' ∧ ∀ ld, t ≠ .dlcall ld) ∨ ∃ ld, t = .dlcall ld ∧ s' = s.load ld ∧
    G' = { G with seen := seenWith G.seen ld.libs, dirty := fun _ => True }

theorem Moves.carry {C : Ctx} {t s G s' G'} (h : Moves C t s G s' G') : Carry s G s' G' := by
  rcases h with h | ⟨ld, -, rfl, rfl⟩
  · exact h.1.carry
  · exact ⟨fun hx => hx, List.prefix_refl _, fun hx => ⟨_, hx, Int.le_refl _⟩, fun hx => hx⟩

/-- One part of one thread. -/
theorem step_thread {C : Ctx} (w : World C.env C.U) (henv : C.hon → EnvOk C.env C.P) (hh : C.hon)
    (hs : ¬ C.sl) {s G A job done t} (h : Inv C s G A) (ht : TOk s G job done t)
    (hnd : (job.table.map UBinding.handle).Nodup)
    (hprog : ∀ u ∈ job.table, C.P u.wrapper = some u.handle)
    (hown : ∀ u ∈ job.table, u.handle ≠ C.env.hLibcMain ∧ u.handle ≠ C.env.hMain)
    (hv : s.vdso = some C.v) (hld : ∀ ld, t = .dlcall ld → LoadOk C G.seen s.linkMap ld)
    (hdl : ∃ a, s.getWrappee C.env.hDlopen = .ok a) :
    ∃ s' t' G' A' new, stepThread C.env t s = .ok (s', t') ∧ Inv C s' G' A' ∧
      TOk s' G' job (done ++ new) t' ∧ Moves C t s G s' G' ∧ TStep job t s G s' G' ∧
      (∀ B, B.inited = true → Alike A B → Alike A' (Abs.run C.env new B).1) ∧
      (∀ b, G.pend b → b ∉ todoOf t → G'.pend b) ∧
      (∀ b ∈ todoOf t', b ∈ todoOf t ∨ ¬ b < s.binds.length) ∧
      (∀ b t u, btu s'.binds b = some (t, u) → btu s.binds b = some (t, u) ∨ u ∈ job.table ∨
        u.handle = C.env.hLibcMain ∨ u.handle = C.env.hMain) ∧
      (isCall t' → False) := by
  cases t with
  | call tbl tool =>
    obtain ⟨rfl, rfl, h4⟩ := ht
    obtain ⟨ts, tid, p, H, hgc, hnp, hadd, hI, hK⟩ := setup_inv h (toolName tool) tbl
      (fun _ => ⟨hnd, hprog, h4, fun _ => hown⟩) (fun hx => absurd hx hs)
    obtain ⟨H0, hf, -⟩ := fold_handles tbl s
    refine ⟨_, .bind tbl.length (List.range' s.binds.length tbl.length) none 0, _, _, [],
      ?_, hI, ?_, Or.inl ⟨hK, fun _ e => (by cases e)⟩, ?_, fun B _ hB => hB.touch _,
      fun b hb _ => Or.inl hb, ?_, ?_, id⟩
    · have hgc' : (tbl.foldl (fun s u => s.setHandle u.handle none) s).tools.getOrCreate
          (tool.getD (nm "[UNSPECIFIED]")) = .ok (ts, tid) := by
        rw [hf]; exact hgc
      have hb' : (tbl.foldl (fun s u => s.setHandle u.handle none) s).binds = s.binds := by
        rw [hf]
      have hg' : (tbl.foldl (fun s u => s.setHandle u.handle none) s).gen = s.gen := by
        rw [hf]
      simp only [stepThread, hgc', bind, Except.bind]
      rw [hg', hadd, show (_ : State).binds = s.binds from hb']
    · refine ⟨tbl, tool, tid, p, [], tbl, fun _ => none, rfl, rfl, rfl, ?_, List.nodup_range', ?_, ?_, hnp,
        Or.inl ⟨rfl, fun _ => rfl⟩, fun f b hb => by simp at hb, fun f hf => by simp at hf⟩
      · intro hne
        cases tbl with
        | nil => simp at hne
        | cons u us => simp
      · apply List.ext_getElem?
        intro i
        simp only [List.getElem?_map]
        by_cases hi : i < tbl.length
        · simp [hi, btu, mkB]
        · simp [hi]
      · intro b hb; exact Or.inr hb
    · exact ⟨List.prefix_refl _, fun _ => rfl, rfl, fun _ hx => absurd trivial hx,
        fun _ hx => absurd trivial hx, fun _ _ _ e => e.elim, fun _ a => Or.inl rfl, fun _ a => Or.inl rfl,
        fun _ => Or.inl rfl⟩
    · intro b hb
      right
      simp only [todoOf, List.mem_range'_1] at hb
      omega
    · intro b t u hb
      by_cases hl : b < s.binds.length
      · rw [btu_append_old hl] at hb; exact Or.inl hb
      · exact Or.inr (Or.inl (List.mem_of_getElem? (btu_append_new hb hl).2))
  | bind n todo nb nf =>
    obtain ⟨tbl, tool, tid, p, dn, us, m, rfl, rfl, h1, h2, h3, h4, h5, h6, h7, h8, h9⟩ := ht
    cases todo with
    | nil =>
      have hus : us = [] := by simpa using h4
      subst hus
      rw [List.append_nil] at h1
      subst h1
      have hst : TStep (.wrap dn tool) (.bind n [] nb nf) s G s G :=
        TStep.refl G (fun _ e => e.elim)
      rcases h7 with ⟨rfl, -⟩ | ⟨tb, rfl, h7⟩
      · exact ⟨s, .ret (retOf nf), G, A, [], rfl, h, by simp [TOk, Job.parts],
          Or.inl ⟨Keep.refl .., fun _ e => (by cases e)⟩, hst,
          fun B _ hB => hB, fun b hb _ => hb, fun b hb => by simp [todoOf] at hb,
          fun b t u hb => Or.inl hb, id⟩
      · refine ⟨s, .write tb 0 nf, G, A, [], rfl, h, ?_, Or.inl ⟨Keep.refl .., fun _ e => (by cases e)⟩, hst,
          fun B _ hB => hB, fun b hb _ => hb, fun b hb => by simp [todoOf] at hb,
          fun b t u hb => Or.inl hb, id⟩
        exact ⟨dn, tool, rfl, by simp [Job.parts], m, h7, fun f b hb => (h8 f b hb).1, h9⟩
    | cons b bs =>
      cases us with
      | nil => simp at h4
      | cons u us =>
      simp only [List.map_cons, List.cons.injEq] at h4
      rw [List.nodup_cons] at h3
      have hu : u ∈ tbl := by rw [← h1]; simp
      obtain ⟨s', G', nb', m', nf', e1, e2, e3, e4, e5, e6, e7, e8, e9, e10, e11, e12, e13, e14, e15,
        e16, e17, e18⟩ := processBindings_spec w (onMainReal_spec w henv) (h2 (by simp))
          (D := fun _ => False) (nf := nf) [u] (inv_dirty hs h (fun f => (m f).isSome = true))
          (bs := [b]) (by simp) (by simp [h4.1]) (by simpa using h5 b (by simp)) h6 h7 h8
          (by simp) (fun hx => absurd hx hs)
      have e3' : Keep C s G s' G' :=
        ⟨e3.seen, e3.tu, e3.np, e3.heads, e3.chs, e3.linkMap, e3.filter, e3.mainW, e3.vds, e3.mem,
          e3.wrs, e3.gens⟩
      refine ⟨s', .bind n bs nb' nf', G', _, [.wrap [u] tool], ?_, e2, ?_,
        Or.inl ⟨e3', fun _ e => (by cases e)⟩, ?_, fun B hi hB => hB.step hi u tool, ?_, ?_,
        ?_, id⟩
      · simp only [stepThread, e1, bind, Except.bind]
      · refine ⟨tbl, tool, tid, p, dn ++ [u], us, m', rfl, by simp, by simpa using h1, fun _ => h2 (by simp),
          h3.2, ?_, ?_, ?_, e5, e6, ?_⟩
        · rw [← h4.2]
          apply List.map_congr_left
          intro c hc
          have : btu s.binds c ∈ us.map (fun u => some (tid, u)) := by
            rw [← h4.2]; exact List.mem_map_of_mem hc
          obtain ⟨v, -, e⟩ := List.mem_map.1 this
          rw [← e]
          exact e3.tu e.symm
        · intro c hc
          rw [e4]
          refine ⟨h5 c (by simp [hc]), ?_⟩
          simp only [List.mem_singleton]
          rintro rfl
          exact h3.1 hc
        · obtain ⟨z, hz⟩ := e3.np
          rw [← hz, List.getElem?_append_left (List.getElem?_eq_some_iff.1 h6).1, h6]
        · intro f hf
          rcases e17 f hf with hx | hx
          · exact h9 f hx
          · simp only [List.map_cons, List.map_nil, List.mem_singleton] at hx
            rw [hx]; exact List.mem_map_of_mem hu
      · refine ⟨by rw [e3.linkMap]; exact List.prefix_refl _, fun _ => e3.linkMap, e3.filter, ?_, ?_, fun _ _ _ e => e.elim, ?_, ?_,
          fun hc => hc.elim⟩
        · intro hm _
          exact (e10 (Or.inl (by simpa using hm u hu))).1.gen
        · intro hm _ a ha
          have hq := (e10 (Or.inl (by simpa using hm u hu))).1
          rw [genAt_ext hq.ext a]; exact ha
        · intro hm a
          exact Or.inl (congrFun (e10 (Or.inl (by simpa using hm u hu))).1.mem a)
        · intro hm a
          exact Or.inl (genAt_ext (e10 (Or.inl (by simpa using hm u hu))).1.ext a)
      · intro c hc hn
        rw [e4]
        refine ⟨hc, ?_⟩
        simp only [todoOf, List.mem_cons, not_or] at hn
        simp [hn.1]
      · intro c hc
        left
        simp only [todoOf] at hc ⊢
        exact List.mem_cons_of_mem _ hc
      · intro c t v hc
        rcases e13 c t v hc with hx | ⟨-, hx⟩
        · exact Or.inl hx
        · exact Or.inr (Or.inr hx)
  | write tb i nf =>
    obtain ⟨tbl, tool, rfl, h2, m, h3, h4, h5⟩ := ht
    cases hd : s.linkMap.drop i with
    | nil =>
      refine ⟨s, .ret (retOf nf), G, A, [], by simp [stepThread, hd], h, ?_,
        Or.inl ⟨Keep.refl .., fun _ e => (by cases e)⟩, TStep.refl G ?_,
        fun B _ hB => hB, fun b hb _ => hb, fun b hb => by simp [todoOf] at hb,
        fun b t u hb => Or.inl hb, id⟩
      · exact ⟨⟨tbl, tool, rfl⟩, by simpa using h2⟩
      · rintro k rfl; exact hd
    | cons l ls =>
      have hsuf : l :: ls <:+ s.linkMap := by rw [← hd]; exact List.drop_suffix _ _
      obtain ⟨s', G', e1, e2, e3, e4, e5, e6, e7, e8, e9, e10⟩ := lib_inv w hs h h3 h4 hsuf
      refine ⟨s', .write tb (i + 1) nf, G', A, [], ?_, e2, ?_,
        Or.inl ⟨e3, fun _ e => (by cases e)⟩, ?_, fun B _ hB => hB,
        fun b hb _ => by rw [e4]; exact hb, fun b hb => by simp [todoOf] at hb,
        fun b t u hb => Or.inl (by rw [← e5]; exact hb), id⟩
      · simp only [stepThread, hd, e1, bind, Except.bind]
      · exact ⟨tbl, tool, rfl, by simpa using h2, m, h3, fun f b hb => e3.chs (h4 f b hb), h5⟩
      · refine ⟨by rw [e3.linkMap]; exact List.prefix_refl _, fun _ => e3.linkMap, e3.filter, fun _ _ => e6, fun _ _ => e7, ?_, ?_,
          fun _ => e10, fun hc => hc.elim⟩
        · rintro k l' ls' rfl e
          rw [hd] at e
          cases e
          exact e8
        · intro _ a
          rcases e9 a with hx | ⟨x1, x2, q, x3, x4, x5⟩
          · exact Or.inl hx
          · refine Or.inr (Or.inl ⟨l, x1, x2, q, x3, x4, h5 _ x5, ?_⟩)
            obtain ⟨b, hb⟩ := Option.isSome_iff_exists.1 x5
            exact List.ne_nil_of_mem (h4 _ _ hb)
  | ret c =>
    exact ⟨s, .ret c, G, A, [], rfl, h, by simpa [TOk] using ht,
      Or.inl ⟨Keep.refl .., fun _ e => (by cases e)⟩, TStep.refl G (fun _ e => e.elim),
      fun B _ hB => hB, fun b hb _ => hb, fun b hb => by simp [todoOf] at hb,
      fun b t u hb => Or.inl hb, id⟩
  | dlcall ld =>
    obtain ⟨rfl, rfl⟩ := ht
    obtain ⟨a, ha⟩ := hdl
    refine ⟨s.load ld, .dlscan, _, _, [.load ld], by simp only [stepThread, ha, bind, Except.bind],
      load_inv h (hld ld rfl) hv, ⟨ld, rfl, rfl⟩, Or.inr ⟨ld, rfl, rfl, rfl⟩, ?_,
      fun B _ hB => hB.load C.env ld, fun b hb _ => hb, fun b hb => by simp [todoOf] at hb,
      fun b t u hb => Or.inl hb, id⟩
    refine ⟨List.prefix_append _ _, fun hx => absurd rfl (hx ld), rfl, fun _ hx => absurd trivial hx,
      fun _ hx => absurd trivial hx, fun _ _ _ e => e.elim, ?_, fun _ a => Or.inl rfl, fun _ => Or.inr rfl⟩
    intro _ a
    show (ld.mem a).getD (s.mem a) = s.mem a ∨ _
    cases hm : ld.mem a with
    | none => exact Or.inl rfl
    | some x => exact Or.inr (Or.inr ⟨ld, rfl, by rw [hm]; exact fun e => by cases e⟩)
  | dlscan =>
    obtain ⟨ld, rfl, rfl⟩ := ht
    obtain ⟨s', G', e1, e2, e3⟩ := foreach_pending (A := A) (libs := []) w (s := s) (G := G)
      (by simpa using h)
    have hK : Keep C s G s' G' := e3.keep
    obtain ⟨⟨tl, libs, vd, binds, nft, hs'⟩, ⟨rl, nf, lm, hG'⟩, htu, hext, -⟩ := e3
    refine ⟨s', .dlwrite 0, G', _, [reopen], by simp only [stepThread, e1, bind, Except.bind], e2,
      ⟨⟨ld, rfl⟩, rfl⟩, Or.inl ⟨hK, fun _ e => (by cases e)⟩, ?_, fun B hi hB => hB.reopen C.env hi, ?_,
      fun b hb => by simp [todoOf] at hb, ?_, id⟩
    · refine ⟨by rw [hK.linkMap]; exact List.prefix_refl _, fun _ => hK.linkMap, hK.filter, ?_, ?_, fun _ _ _ e => e.elim, ?_,
        fun _ a => Or.inl (genAt_ext hext a), fun hc => hc.elim⟩
      · intro _ _; rw [hs']
      · intro _ _ a ha
        rw [genAt_ext hext a]; exact ha
      · intro _ a; left; rw [hs']
    · intro b hb _; rw [hG']; exact hb
    · intro b t u hb; rw [htu] at hb; exact Or.inl hb
  | dlwrite i =>
    obtain ⟨⟨ld, rfl⟩, h2⟩ := ht
    cases hd : s.linkMap.drop i with
    | nil =>
      refine ⟨s, .dlret, G, A, [], by simp [stepThread, hd], h, ?_,
        Or.inl ⟨Keep.refl .., fun _ e => (by cases e)⟩, TStep.refl G ?_,
        fun B _ hB => hB, fun b hb _ => hb, fun b hb => by simp [todoOf] at hb,
        fun b t u hb => Or.inl hb, id⟩
      · exact ⟨⟨ld, rfl⟩, by simpa using h2⟩
      · rintro k rfl; exact hd
    | cons l ls =>
      have hsuf : l :: ls <:+ s.linkMap := by rw [← hd]; exact List.drop_suffix _ _
      obtain ⟨s', G', e1, e2, e3, e4, e5, e6, e7, e8, e9, e10⟩ := lib_inv w hs h h.fn
        (fun f b hb => List.mem_of_mem_head? hb) hsuf
      refine ⟨s', .dlwrite (i + 1), G', A, [], ?_, e2, ?_,
        Or.inl ⟨e3, fun _ e => (by cases e)⟩, ?_, fun B _ hB => hB,
        fun b hb _ => by rw [e4]; exact hb, fun b hb => by simp [todoOf] at hb,
        fun b t u hb => Or.inl (by rw [← e5]; exact hb), id⟩
      · simp only [stepThread, hd, e1, bind, Except.bind]
      · exact ⟨⟨ld, rfl⟩, by simpa using h2⟩
      · refine ⟨by rw [e3.linkMap]; exact List.prefix_refl _, fun _ => e3.linkMap, e3.filter, fun _ _ => e6, fun _ _ => e7, ?_, ?_,
          fun _ => e10, fun hc => hc.elim⟩
        · rintro k l' ls' rfl e
          rw [hd] at e
          cases e
          exact e8
        · intro _ a
          rcases e9 a with hx | ⟨x1, x2, q, x3, x4, x5⟩
          · exact Or.inl hx
          · refine Or.inr (Or.inl ⟨l, x1, x2, q, x3, x4, ?_⟩)
            intro hc
            rw [hc] at x5
            cases x5
  | dlret =>
    exact ⟨s, .dlret, G, A, [], rfl, h, by simpa [TOk] using ht,
      Or.inl ⟨Keep.refl .., fun _ e => (by cases e)⟩, TStep.refl G (fun _ e => e.elim),
      fun B _ hB => hB, fun b hb _ => hb, fun b hb => by simp [todoOf] at hb,
      fun b t u hb => Or.inl hb, id⟩

/-! ### all threads -/

/-- The objects still to be loaded. -/
def thLoads : List Thread → List Load
  | [] => []
  | .dlcall ld :: ts => ld :: thLoads ts
  | _ :: ts => thLoads ts

/-- The loader can load these one after the other. -/
def LoadChain (C : Ctx) : (Lib → Prop) → List Lib → List Load → Prop
  | _, _, [] => True
  | seen, libs, ld :: lds => LoadOk C seen libs ld ∧
      LoadChain C (seenWith seen ld.libs) (libs ++ ld.libs) lds

theorem thLoads_append (X Y : List Thread) : thLoads (X ++ Y) = thLoads X ++ thLoads Y := by
  induction X with
  | nil => rfl
  | cons t X ih => cases t <;> simp [thLoads, ih]

theorem thLoads_one {t : Thread} (h : ∀ ld, t ≠ .dlcall ld) (Y : List Thread) :
    thLoads (t :: Y) = thLoads Y := by
  cases t with
  | dlcall ld => exact absurd rfl (h ld)
  | _ => rfl

theorem split_at {α : Type} {ts : List α} {i : Nat} {t : α} (h : ts[i]? = some t) :
    ∃ X Y, ts = X ++ t :: Y ∧ ∀ t', ts.set i t' = X ++ t' :: Y := by
  obtain ⟨hl, rfl⟩ := List.getElem?_eq_some_iff.1 h
  refine ⟨ts.take i, ts.drop (i + 1), ?_, fun t' => List.set_eq_take_append_cons_drop .. |>.trans (if_pos hl)⟩
  rw [List.getElem_cons_drop, List.take_append_drop]

/-- GOTCHA's binding of dlopen is in place. -/
def DlOn (C : Ctx) (s : State) (G : Gh) : Prop :=
  ∃ b t, btu s.binds b = some (t, ⟨nm "dlopen", C.env.dlopenW, C.env.hDlopen⟩) ∧ b ∈ G.ch (nm "dlopen")

theorem DlOn.carry {C : Ctx} {s G s' G'} (h : DlOn C s G) (hk : Carry s G s' G') : DlOn C s' G' := by
  obtain ⟨b, t, h1, h2⟩ := h
  exact ⟨b, t, hk.tu h1, hk.chs h2⟩

theorem DlOn.wrappee {C : Ctx} {s G A} (h : DlOn C s G) (hI : Inv C s G A) (hh : C.hon)
    (hr : A.real (nm "dlopen") ≠ none) : ∃ a, s.getWrappee C.env.hDlopen = .ok a := by
  obtain ⟨b, t, hb, hf⟩ := h
  have hH := hI.hon hh
  obtain ⟨r, hr⟩ := Option.ne_none_iff_exists'.1 hr
  have hw := hH.wch (nm "dlopen")
  rw [← hI.real hh, hr] at hw
  obtain ⟨a, ha⟩ := wchain_some hw (by
    intro c hc
    obtain ⟨t2, u2, e, -⟩ := hI.bind.named hc
    exact ⟨u2.wrapper, by simp [bwr, e]⟩) b hf
  exact ⟨a, getWrappee_of (hH.own hb) ha⟩

structure TInv (C : Ctx) (jobs : List Job) (B : Abs) (log : List (Nat × Op)) (ts : List Thread)
    (s : State) (G : Gh) (A : Abs) : Prop where
  inv : Inv C s G A
  len : ts.length = jobs.length
  ok : ∀ (i : Nat) t j, ts[i]? = some t → jobs[i]? = some j → TOk s G j (part i log) t
  disj : ∀ (i k : Nat) t t', i ≠ k → ts[i]? = some t → ts[k]? = some t' → ∀ b ∈ todoOf t,
    b ∉ todoOf t'
  ids : ∀ e ∈ log, e.1 < jobs.length
  init : B.inited = true
  dl : B.stack (nm "dlopen") ≠ [] ∧ B.real (nm "dlopen") ≠ none
  like : Alike A (Abs.run C.env (asOps log) B).1
  vd : s.vdso = some C.v
  on : DlOn C s G
  loads : ∀ lds, lds.Perm (thLoads ts) → LoadChain C G.seen s.linkMap lds

theorem part_snoc (i k : Nat) (log : List (Nat × Op)) (us : List Op) :
    part i (log ++ us.map (fun u => (k, u))) = part i log ++ if k = i then us else [] := by
  unfold part
  rw [List.filter_append, List.map_append]
  congr 1
  by_cases e : k = i
  · subst e
    rw [if_pos rfl, List.filter_eq_self.2, List.map_map]
    · exact List.map_id _
    · intro x hx
      obtain ⟨u, -, rfl⟩ := List.mem_map.1 hx
      simp
  · rw [if_neg e, List.filter_eq_nil_iff.2]
    · rfl
    · intro x hx
      obtain ⟨u, -, rfl⟩ := List.mem_map.1 hx
      simp [e]

theorem step_inited_keep (env : Env) (op : Op) {B : Abs} (h : B.inited = true) :
    (B.step env op).1.inited = true := by
  have hi : (B.init env).inited = true := Spec.init_inited env B
  cases op with
  | wrap tbl tool =>
    show (Abs.wrap _ _ _ _).1.inited = _
    rw [(Spec.wrap_same (Spec.onMain_same env) _ _ _).inited]; exact hi
  | setPriority t v => exact hi
  | getPriority t => exact hi
  | setFilter f => exact h
  | dlopen ld => rw [Spec.step_dlopen]; split <;> exact h
  | load ld => exact h
  | unload dead => exact h

theorem run_inited_keep (env : Env) (ops : List Op) : ∀ {B : Abs}, B.inited = true →
    (Abs.run env ops B).1.inited = true := by
  induction ops with
  | nil => intro B h; exact h
  | cons op ops ih => intro B h; exact ih (step_inited_keep env op h)

theorem run_grow (env : Env) (ops : List Op) : ∀ B : Abs, Spec.Grow B (Abs.run env ops B).1 := by
  induction ops with
  | nil => intro B; exact Spec.Grow.refl B
  | cons op ops ih => intro B; exact (Spec.step_grow env op B).trans (ih _)

theorem TInv.wrappee {C : Ctx} {jobs B log ts s G A} (h : TInv C jobs B log ts s G A) (hh : C.hon) :
    ∃ a, s.getWrappee C.env.hDlopen = .ok a := by
  refine h.on.wrappee h.inv hh ?_
  rw [h.like.real]
  obtain ⟨r, hr⟩ := Option.ne_none_iff_exists'.1 h.dl.2
  rw [(run_grow C.env (asOps log) B).real _ r h.dl.1 hr]
  exact fun e => by cases e

/-- One step of the machine. -/
theorem step_all {C : Ctx} (w : World C.env C.U) (henv : C.hon → EnvOk C.env C.P) (hh : C.hon)
    (hs : ¬ C.sl) {jobs B log ts s G A} (hj : JobsOk C jobs) (h : TInv C jobs B log ts s G A)
    {i t job} (hi : ts[i]? = some t) (hji : jobs[i]? = some job) :
    ∃ s' t' G' A' log', stepThread C.env t s = .ok (s', t') ∧
      TInv C jobs B log' (ts.set i t') s' G' A' ∧ TStep job t s G s' G' ∧ ¬ isCall t' ∧
      Carry s G s' G' := by
  have hjm : job ∈ jobs := List.mem_of_getElem? hji
  obtain ⟨X, Y, hXY, hset⟩ := split_at hi
  have hld : ∀ ld, t = .dlcall ld → (∀ lds, lds.Perm (thLoads X ++ thLoads Y) →
      LoadChain C G.seen s.linkMap (ld :: lds)) := by
    rintro ld rfl lds hp
    refine h.loads _ ?_
    rw [hXY, thLoads_append]
    exact (hp.cons ld).trans List.perm_middle.symm
  obtain ⟨s', t', G', A', new, e1, e2, e3, e4, e5, e6, e7, e8, e9, e10⟩ := step_thread w henv hh hs
    h.inv (h.ok i t job hi hji) (hj.nd _ hjm) (hj.prog _ hjm) (hj.own _ hjm) h.vd
    (fun ld e => (hld ld e _ (List.Perm.refl _)).1) (h.wrappee hh)
  have hlt : ∀ (k : Nat) tk, ts[k]? = some tk → ∀ jk, jobs[k]? = some jk → ∀ b ∈ todoOf tk,
      G.pend b ∧ b < s.binds.length := by
    intro k tk hk jk hjk b hb
    have := h.ok k tk jk hk hjk
    cases tk with
    | bind n todo nb nf =>
      obtain ⟨tbl, tool, tid, p, dn, us, m, -, -, x1, x2, x3, x4, x5, -⟩ := this
      exact ⟨x5 b hb, h.inv.bind.pendb (x5 b hb)⟩
    | _ => simp [todoOf] at hb
  have hilen : i < ts.length := (List.getElem?_eq_some_iff.1 hi).1
  have hget : ∀ (k : Nat) tk, (ts.set i t')[k]? = some tk → (k = i ∧ tk = t') ∨ (k ≠ i ∧ ts[k]? = some tk) := by
    intro k tk hk
    rw [List.getElem?_set] at hk
    by_cases e : i = k
    · subst e
      simp [hilen] at hk
      exact Or.inl ⟨rfl, hk.symm⟩
    · rw [if_neg e] at hk
      exact Or.inr ⟨fun hx => e hx.symm, hk⟩
  have hjob : ∀ (k : Nat) tk, ts[k]? = some tk → ∃ jk, jobs[k]? = some jk := by
    intro k tk hk
    have := (List.getElem?_eq_some_iff.1 hk).1
    rw [h.len] at this
    exact ⟨_, List.getElem?_eq_getElem this⟩
  refine ⟨s', t', G', A', log ++ new.map (fun u => (i, u)), e1, ?_, e5, e10, e4.carry⟩
  refine ⟨e2, by simp [h.len], ?_, ?_, ?_, h.init, h.dl, ?_, ?_, h.on.carry e4.carry, ?_⟩
  · intro k tk jk hk hjk
    rw [part_snoc]
    rcases hget k tk hk with ⟨rfl, rfl⟩ | ⟨hne, hk'⟩
    · rw [hji] at hjk
      cases hjk
      rw [if_pos rfl]
      exact e3
    · rw [if_neg (Ne.symm hne), List.append_nil]
      refine (h.ok k tk jk hk' hjk).carry e4.carry ?_ ?_
      · intro b hb hp
        exact e7 b hp (fun hc => h.disj k i tk t hne hk' hi b hb hc)
      · intro b t0 u hb
        rcases e9 b t0 u hb with hx | hx | hx
        · exact Or.inl hx
        · exact Or.inr (hj.disj i k job jk (Ne.symm hne) hji hjk u hx)
        · right
          intro hc
          obtain ⟨v, hv, ev⟩ := List.mem_map.1 hc
          have := hj.own jk (List.mem_of_getElem? hjk) v hv
          rw [ev] at this
          rcases hx with hx | hx
          · exact this.1 hx
          · exact this.2 hx
  · have key : ∀ (k : Nat) tk, ts[k]? = some tk → k ≠ i → ∀ b ∈ todoOf t', b ∉ todoOf tk := by
      intro k tk hk hne b hb hc
      rcases e8 b hb with hx | hx
      · exact h.disj i k t tk (Ne.symm hne) hi hk b hx hc
      · obtain ⟨jk, hjk⟩ := hjob k tk hk
        exact hx (hlt k tk hk jk hjk b hc).2
    intro k k' tk tk' hkk hk hk' b hb
    rcases hget k tk hk with ⟨rfl, rfl⟩ | ⟨hne, hk1⟩
    · rcases hget k' tk' hk' with ⟨rfl, rfl⟩ | ⟨hne', hk1'⟩
      · exact absurd rfl hkk
      · exact key k' tk' hk1' hne' b hb
    · rcases hget k' tk' hk' with ⟨rfl, rfl⟩ | ⟨hne', hk1'⟩
      · intro hc
        exact key k tk hk1 hne b hc hb
      · exact h.disj k k' tk tk' hkk hk1 hk1' b hb
  · intro e he
    rcases List.mem_append.1 he with he | he
    · exact h.ids e he
    · obtain ⟨u, -, rfl⟩ := List.mem_map.1 he
      have := hilen
      rw [h.len] at this
      exact this
  · have : asOps (log ++ new.map (fun u => (i, u))) = asOps log ++ new := by
      simp [asOps, Function.comp_def]
    rw [this, Spec.run_append]
    exact e6 _ (run_inited_keep C.env _ h.init) h.like
  · rcases e4 with ⟨hk, -⟩ | ⟨ld, -, rfl, rfl⟩
    · rw [hk.vds (by rw [h.vd]; exact fun e => by cases e), h.vd]
    · exact h.vd
  · have ht' : ∀ ld, t' ≠ .dlcall ld := by
      rintro ld rfl; exact e10 trivial
    rw [hset t', thLoads_append, thLoads_one ht']
    rcases e4 with ⟨hk, hn⟩ | ⟨ld, rfl, rfl, rfl⟩
    · rw [hk.seen, hk.linkMap]
      intro lds hp
      refine h.loads lds ?_
      rw [hXY, thLoads_append, thLoads_one hn]
      exact hp
    · intro lds hp
      exact (hld ld rfl lds hp).2

/-- Any schedule. -/
theorem run_all {C : Ctx} (w : World C.env C.U) (henv : C.hon → EnvOk C.env C.P) (hh : C.hon)
    (hs : ¬ C.sl) {jobs B} (hj : JobsOk C jobs) (σ : List Nat) : ∀ {log ts s G A},
    TInv C jobs B log ts s G A → ∃ s' ts' G' A' log', runThreads C.env σ ts s = .ok (s', ts') ∧
      TInv C jobs B log' ts' s' G' A' := by
  induction σ with
  | nil => intro log ts s G A h; exact ⟨s, ts, G, A, log, rfl, h⟩
  | cons i σ ih =>
    intro log ts s G A h
    cases hi : ts[i]? with
    | none =>
      obtain ⟨s', ts', G', A', log', e1, e2⟩ := ih h
      exact ⟨s', ts', G', A', log', by simp only [runThreads, hi]; exact e1, e2⟩
    | some t =>
      have hl := (List.getElem?_eq_some_iff.1 hi).1
      rw [h.len] at hl
      obtain ⟨s1, t1, G1, A1, log1, e1, e2, e3, -⟩ := step_all w henv hh hs hj h hi
        (List.getElem?_eq_getElem hl)
      obtain ⟨s', ts', G', A', log', e4, e5⟩ := ih e2
      exact ⟨s', ts', G', A', log', by simp only [runThreads, hi, e1, bind, Except.bind]; exact e4, e5⟩

/-! ### who writes, and who is told to skip -/

/-- All accepted libraries are marked with the current generation. -/
def AllMarked (s : State) (G : Gh) : Prop :=
  ∀ l, Accepted s.filter s.linkMap l → HasRel l → genAt s.libs G.lm l = s.gen

/-- Before `update_all_library_gots`. -/
def early : Thread → Prop
  | .call _ _ => True
  | .bind _ _ _ _ => True
  | .dlcall _ => True
  | .dlscan => True
  | _ => False

theorem late_step {env : Env} {t s s' t'} (h : stepThread env t s = .ok (s', t')) (ht : ¬ early t) :
    ¬ early t' := by
  cases t with
  | call _ _ => exact absurd trivial ht
  | bind _ _ _ _ => exact absurd trivial ht
  | dlcall _ => exact absurd trivial ht
  | dlscan => exact absurd trivial ht
  | write tb i nf =>
    simp only [stepThread] at h
    split at h
    · simp only [Except.ok.injEq, Prod.mk.injEq] at h; rw [← h.2]; exact id
    · simp only [bind, Except.bind] at h
      split at h
      · cases h
      · simp only [Except.ok.injEq, Prod.mk.injEq] at h; rw [← h.2]; exact id
  | ret c => simp only [stepThread, Except.ok.injEq, Prod.mk.injEq] at h; rw [← h.2]; exact id
  | dlwrite i =>
    simp only [stepThread] at h
    split at h
    · simp only [Except.ok.injEq, Prod.mk.injEq] at h; rw [← h.2]; exact id
    · simp only [bind, Except.bind] at h
      split at h
      · cases h
      · simp only [Except.ok.injEq, Prod.mk.injEq] at h; rw [← h.2]; exact id
  | dlret => simp only [stepThread, Except.ok.injEq, Prod.mk.injEq] at h; rw [← h.2]; exact id

theorem late_run {env : Env} {j : Nat} (σ : List Nat) : ∀ {ts s s' ts'},
    runThreads env σ ts s = .ok (s', ts') → (∃ t, ts[j]? = some t ∧ ¬ early t) →
    ∃ t, ts'[j]? = some t ∧ ¬ early t := by
  induction σ with
  | nil => intro ts s s' ts' h ht; cases h; exact ht
  | cons i σ ih =>
    intro ts s s' ts' h ht
    cases hi : ts[i]? with
    | none => simp only [runThreads, hi] at h; exact ih h ht
    | some t =>
      simp only [runThreads, hi, bind, Except.bind] at h
      split at h
      · cases h
      rename_i r hr
      refine ih h ?_
      obtain ⟨tj, h1, h2⟩ := ht
      by_cases e : i = j
      · subst e
        rw [hi] at h1
        cases h1
        refine ⟨r.2, ?_, late_step (s' := r.1) hr h2⟩
        rw [List.getElem?_set_self (List.getElem?_eq_some_iff.1 hi).1]
      · exact ⟨tj, by rw [List.getElem?_set_ne e]; exact h1, h2⟩

/-- As long as a thread has not come to `update_all_library_gots`, the slots of its function are not
written.  (All threads are in `gotcha_wrap`.) -/
theorem run_slots {C : Ctx} (w : World C.env C.U) (henv : C.hon → EnvOk C.env C.P) (hh : C.hon)
    (hs : ¬ C.sl) {jobs B} (hj : JobsOk C jobs) (hm : ∀ j ∈ jobs, noMain j) {j : Nat} {f : Name} {a : Addr}
    (hf : ∀ (i : Nat) ji, jobs[i]? = some ji → ∃ tbl tool, ji = .wrap tbl tool ∧
      (i ≠ j → f ∉ tbl.map UBinding.name))
    (σ : List Nat) : ∀ {log ts s G A},
    TInv C jobs B log ts s G A →
    (∀ l ∈ s.linkMap, ∀ q ∈ rlOf l, a = l.addr + q.1 → q.2 = f) → ∀ {s' ts'},
    runThreads C.env σ ts s = .ok (s', ts') → (∃ t, ts'[j]? = some t ∧ early t) →
    s'.mem a = s.mem a := by
  induction σ with
  | nil => intro log ts s G A _ _ s' ts' h _; cases h; rfl
  | cons i σ ih =>
    intro log ts s G A h ha s' ts' hr he
    cases hi : ts[i]? with
    | none => simp only [runThreads, hi] at hr; exact ih h ha hr he
    | some t =>
      have hl := (List.getElem?_eq_some_iff.1 hi).1
      rw [h.len] at hl
      have hji := List.getElem?_eq_getElem hl
      obtain ⟨s1, t1, G1, A1, log1, e1, e2, e3, -⟩ := step_all w henv hh hs hj h hi hji
      simp only [runThreads, hi, e1, bind, Except.bind] at hr
      obtain ⟨tbl, tool, hjob, hnf⟩ := hf i _ hji
      have hT := h.ok i t _ hi hji
      rw [hjob] at hT
      have hlm : s1.linkMap = s.linkMap := by
        refine e3.linkMap ?_
        rintro ld rfl
        cases hT.1
      rw [ih e2 (by rw [hlm]; exact ha) hr he]
      rcases e3.mem (hm _ (List.mem_of_getElem? hji)) a with
        hx | ⟨l, ⟨X, Y, hX, -⟩, -, q, hq, hq1, hq2⟩ | ⟨ld, rfl, -⟩
      · exact hx
      · exfalso
        have hqf := ha l (by rw [hX]; simp) q hq hq1
        rw [hqf] at hq2
        cases t with
        | write tb k nf =>
          by_cases e : i = j
          · subst e
            obtain ⟨t2, x1, x2⟩ := late_run σ hr (j := i) ⟨t1, by
              rw [List.getElem?_set_self (List.getElem?_eq_some_iff.1 hi).1], late_step e1 id⟩
            obtain ⟨t3, x3, x4⟩ := he
            rw [x1] at x3
            cases x3
            exact x2 x4
          · rw [hjob] at hq2
            exact hnf e hq2.1
        | dlwrite k =>
          obtain ⟨⟨ld, e⟩, -⟩ := hT
          cases e
        | _ => exact hq2
      · cases hT.1

/-- As long as no dlopen has come to `update_all_library_gots`, the slots of a function that no thread
wraps are not written. -/
theorem run_others {C : Ctx} (w : World C.env C.U) (henv : C.hon → EnvOk C.env C.P) (hh : C.hon)
    (hs : ¬ C.sl) {jobs B} (hj : JobsOk C jobs) (hm : ∀ j ∈ jobs, noMain j) {f : Name} {a : Addr}
    (hf : ∀ j ∈ jobs, f ∉ j.table.map UBinding.name)
    (σ : List Nat) : ∀ {log ts s G A},
    TInv C jobs B log ts s G A → (∀ t ∈ ts, ¬ isCall t) →
    (∀ l ∈ s.linkMap, ∀ q ∈ rlOf l, a = l.addr + q.1 → q.2 = f) → ∀ {s' ts'},
    runThreads C.env σ ts s = .ok (s', ts') → (∀ t ∈ ts', (∀ k, t ≠ .dlwrite k) ∧ t ≠ .dlret) →
    s'.mem a = s.mem a := by
  induction σ with
  | nil => intro log ts s G A _ _ _ s' ts' h _; cases h; rfl
  | cons i σ ih =>
    intro log ts s G A h hc ha s' ts' hr he
    cases hi : ts[i]? with
    | none => simp only [runThreads, hi] at hr; exact ih h hc ha hr he
    | some t =>
      have hl := (List.getElem?_eq_some_iff.1 hi).1
      rw [h.len] at hl
      have hji := List.getElem?_eq_getElem hl
      obtain ⟨s1, t1, G1, A1, log1, e1, e2, e3, e4, -⟩ := step_all w henv hh hs hj h hi hji
      simp only [runThreads, hi, e1, bind, Except.bind] at hr
      have hct := hc t (List.mem_of_getElem? hi)
      have hc1 : ∀ t ∈ ts.set i t1, ¬ isCall t := by
        intro t' ht'
        rcases List.mem_or_eq_of_mem_set ht' with hx | rfl
        · exact hc t' hx
        · exact e4
      rw [ih e2 hc1 (by rw [e3.lm hct]; exact ha) hr he]
      rcases e3.mem (hm _ (List.mem_of_getElem? hji)) a with
        hx | ⟨l, ⟨X, Y, hX, -⟩, -, q, hq, hq1, hq2⟩ | ⟨ld, rfl, -⟩
      · exact hx
      · exfalso
        have hqf := ha l (by rw [hX]; simp) q hq hq1
        rw [hqf] at hq2
        cases t with
        | write tb k nf => exact hf _ (List.mem_of_getElem? hji) hq2.1
        | dlwrite k =>
          have hdl : ∀ (σ : List Nat) {ts s s' ts'}, runThreads C.env σ ts s = .ok (s', ts') →
              (∃ t, ts[i]? = some t ∧ ((∃ k, t = .dlwrite k) ∨ t = .dlret)) →
              ∃ t, ts'[i]? = some t ∧ ((∃ k, t = .dlwrite k) ∨ t = .dlret) := by
            intro σ
            induction σ with
            | nil => intro ts s s' ts' h ht; cases h; exact ht
            | cons n σ ih =>
              intro ts s s' ts' h ht
              cases hn : ts[n]? with
              | none => simp only [runThreads, hn] at h; exact ih h ht
              | some t =>
                simp only [runThreads, hn, bind, Except.bind] at h
                split at h
                · cases h
                rename_i r hr
                refine ih h ?_
                obtain ⟨ti, h1, h2⟩ := ht
                by_cases e : n = i
                · subst e
                  rw [hn] at h1
                  cases h1
                  refine ⟨r.2, by rw [List.getElem?_set_self (List.getElem?_eq_some_iff.1 hn).1], ?_⟩
                  rcases h2 with ⟨k, rfl⟩ | rfl
                  · simp only [stepThread] at hr
                    split at hr
                    · cases hr; exact Or.inr rfl
                    · simp only [bind, Except.bind] at hr
                      split at hr
                      · cases hr
                      · cases hr; exact Or.inl ⟨_, rfl⟩
                  · cases hr; exact Or.inr rfl
                · exact ⟨ti, by rw [List.getElem?_set_ne e]; exact h1, h2⟩
          have hrun : runThreads C.env (i :: σ) ts s = .ok (s', ts') := by
            simp only [runThreads, hi, e1, bind, Except.bind]; exact hr
          obtain ⟨t2, x1, x2⟩ := hdl _ hrun ⟨_, hi, Or.inl ⟨k, rfl⟩⟩
          have := he t2 (List.mem_of_getElem? x1)
          rcases x2 with ⟨k', rfl⟩ | rfl
          · exact this.1 k' rfl
          · exact this.2 rfl
        | _ => exact hq2
      · exact absurd trivial hct

/-- As long as a function is not registered, its slots are not written. -/
theorem run_unregistered {C : Ctx} (w : World C.env C.U) (henv : C.hon → EnvOk C.env C.P) (hh : C.hon)
    (hs : ¬ C.sl) {jobs B} (hj : JobsOk C jobs) (hm : ∀ j ∈ jobs, noMain j) {f : Name} {a : Addr}
    (hld : ∀ j ∈ jobs, ∀ ld ∈ j.loads, ld.mem a = none)
    (σ : List Nat) : ∀ {log ts s G A},
    TInv C jobs B log ts s G A → ∀ {s' ts'}, runThreads C.env σ ts s = .ok (s', ts') →
    ∃ G' A' log', TInv C jobs B log' ts' s' G' A' ∧ s.linkMap <+: s'.linkMap ∧ Carry s G s' G' ∧
      (G'.ch f = [] → (∀ l ∈ s'.linkMap, ∀ q ∈ rlOf l, a = l.addr + q.1 → q.2 = f) →
        s'.mem a = s.mem a) := by
  induction σ with
  | nil =>
    intro log ts s G A h s' ts' hr
    cases hr
    exact ⟨G, A, log, h, List.prefix_refl _,
      ⟨fun hx => hx, List.prefix_refl _, fun hx => ⟨_, hx, Int.le_refl _⟩, fun hx => hx⟩, fun _ _ => rfl⟩
  | cons i σ ih =>
    intro log ts s G A h s' ts' hr
    cases hi : ts[i]? with
    | none => simp only [runThreads, hi] at hr; exact ih h hr
    | some t =>
      have hl := (List.getElem?_eq_some_iff.1 hi).1
      rw [h.len] at hl
      have hji := List.getElem?_eq_getElem hl
      obtain ⟨s1, t1, G1, A1, log1, e1, e2, e3, -, e5⟩ := step_all w henv hh hs hj h hi hji
      simp only [runThreads, hi, e1, bind, Except.bind] at hr
      obtain ⟨G', A', log', x1, x2, x3, x4⟩ := ih e2 hr
      refine ⟨G', A', log', x1, e3.grow.trans x2, ?_, ?_⟩
      · exact ⟨fun hx => x3.tu (e5.tu hx), e5.np.trans x3.np, fun hx => by
          obtain ⟨h1, y1, y2⟩ := e5.heads hx
          obtain ⟨h2, y3, y4⟩ := x3.heads y1
          exact ⟨h2, y3, Int.le_trans y2 y4⟩, fun hx => x3.chs (e5.chs hx)⟩
      · intro hc ha
        rw [x4 hc ha]
        have hch : G.ch f = [] := by
          cases hx : G.ch f with
          | nil => rfl
          | cons b L =>
            have := x3.chs (e5.chs (f := f) (b := b) (by rw [hx]; simp))
            rw [hc] at this
            cases this
        rcases e3.mem (hm _ (List.mem_of_getElem? hji)) a with
          hx | ⟨l, ⟨X, Y, hX, -⟩, -, q, hq, hq1, hq2⟩ | ⟨ld, rfl, hx⟩
        · exact hx
        · exfalso
          have hqf := ha l (x2.subset (e3.grow.subset (by rw [hX]; simp))) q hq hq1
          rw [hqf] at hq2
          cases t with
          | write tb k nf => exact hq2.2 hch
          | dlwrite k => exact hq2 hch
          | _ => exact hq2
        · exfalso
          have hT := h.ok i _ _ hi hji
          refine hx (hld _ (List.mem_of_getElem? hji) ld ?_)
          rw [hT.1]
          simp [Job.loads]

/-- Once all libraries are marked, nothing is written any more. -/
theorem run_marked {C : Ctx} (w : World C.env C.U) (henv : C.hon → EnvOk C.env C.P) (hh : C.hon)
    (hs : ¬ C.sl) {jobs B} (hj : JobsOk C jobs) (hm : ∀ j ∈ jobs, noMain j)
    (σ : List Nat) : ∀ {log ts s G A},
    TInv C jobs B log ts s G A → (∀ t ∈ ts, ¬ isCall t) → AllMarked s G → ∀ {s' ts'},
    runThreads C.env σ ts s = .ok (s', ts') → s'.mem = s.mem := by
  induction σ with
  | nil => intro log ts s G A _ _ _ s' ts' h; cases h; rfl
  | cons i σ ih =>
    intro log ts s G A h hc ha s' ts' hr
    cases hi : ts[i]? with
    | none => simp only [runThreads, hi] at hr; exact ih h hc ha hr
    | some t =>
      have hl := (List.getElem?_eq_some_iff.1 hi).1
      rw [h.len] at hl
      have hji := List.getElem?_eq_getElem hl
      obtain ⟨s1, t1, G1, A1, log1, e1, e2, e3, e4, -⟩ := step_all w henv hh hs hj h hi hji
      simp only [runThreads, hi, e1, bind, Except.bind] at hr
      have hmj := hm _ (List.mem_of_getElem? hji)
      have hct := hc t (List.mem_of_getElem? hi)
      rw [ih e2 ?_ ?_ hr]
      · funext a
        rcases e3.mem hmj a with hx | ⟨l, h2, h3, q, hq, -⟩ | ⟨ld, rfl, -⟩
        · exact hx
        · exact absurd (ha l h2 (hasRel_of_mem hq)) h3
        · exact absurd trivial hct
      · intro t' ht'
        rcases List.mem_or_eq_of_mem_set ht' with hx | rfl
        · exact hc t' hx
        · exact e4
      · intro l hl hrel
        rw [e3.filter, e3.lm hct] at hl
        rw [e3.gens hmj hct l (ha l hl hrel), e3.gen hmj hct]

/-- The first `i` libraries are marked. -/
def MarkedTo (s : State) (G : Gh) (i : Nat) : Prop :=
  ∀ X l Y, s.linkMap = X ++ l :: Y → X.length < i →
    s.filter.accepts l (!Y.isEmpty) = .ok true → HasRel l → genAt s.libs G.lm l = s.gen

/-- How far a thread is with marking the libraries. -/
def Marking (s : State) (G : Gh) : Thread → Prop
  | .write _ i _ => MarkedTo s G i
  | .dlwrite i => MarkedTo s G i
  | .ret _ => AllMarked s G
  | .dlret => AllMarked s G
  | _ => False

theorem markedTo_all {s : State} {G : Gh} {i : Nat} (h : MarkedTo s G i) (hd : s.linkMap.drop i = []) :
    AllMarked s G := by
  rintro l ⟨X, Y, hX, ha⟩ hrel
  refine h X l Y hX ?_ ha hrel
  have := List.drop_eq_nil_iff.1 hd
  rw [hX] at this
  simp at this
  omega

theorem run_marking {C : Ctx} (w : World C.env C.U) (henv : C.hon → EnvOk C.env C.P) (hh : C.hon)
    (hs : ¬ C.sl) {jobs B} (hj : JobsOk C jobs) (hm : ∀ j ∈ jobs, noMain j) {i : Nat}
    (σ : List Nat) : ∀ {log ts s G A},
    TInv C jobs B log ts s G A → (∀ t ∈ ts, ¬ isCall t) → (∃ t, ts[i]? = some t ∧ Marking s G t) →
    ∀ {s' ts'}, runThreads C.env σ ts s = .ok (s', ts') →
    ∃ G' A' log', TInv C jobs B log' ts' s' G' A' ∧ (∀ t ∈ ts', ¬ isCall t) ∧
      (∃ t, ts'[i]? = some t ∧ Marking s' G' t) := by
  induction σ with
  | nil => intro log ts s G A h hc ht s' ts' hr; cases hr; exact ⟨G, A, log, h, hc, ht⟩
  | cons k σ ih =>
    intro log ts s G A h hc ht s' ts' hr
    cases hk : ts[k]? with
    | none => simp only [runThreads, hk] at hr; exact ih h hc ht hr
    | some t =>
      have hl := (List.getElem?_eq_some_iff.1 hk).1
      rw [h.len] at hl
      have hjk := List.getElem?_eq_getElem hl
      obtain ⟨s1, t1, G1, A1, log1, e1, e2, e3, e4, -⟩ := step_all w henv hh hs hj h hk hjk
      simp only [runThreads, hk, e1, bind, Except.bind] at hr
      have hmk := hm _ (List.mem_of_getElem? hjk)
      have hct := hc t (List.mem_of_getElem? hk)
      have hg : ∀ l, genAt s.libs G.lm l = s.gen → genAt s1.libs G1.lm l = s1.gen := by
        intro l hx
        rw [e3.gens hmk hct l hx, e3.gen hmk hct]
      have hmt : ∀ n, MarkedTo s G n → MarkedTo s1 G1 n := by
        intro n hn X l Y hX hY ha hrel
        rw [e3.lm hct] at hX
        rw [e3.filter] at ha
        exact hg l (hn X l Y hX hY ha hrel)
      have hma : AllMarked s G → AllMarked s1 G1 := by
        intro hn l ha hrel
        rw [e3.filter, e3.lm hct] at ha
        exact hg l (hn l ha hrel)
      have hmono : ∀ t, Marking s G t → Marking s1 G1 t := by
        intro t ht
        cases t with
        | write tb n nf => exact hmt n ht
        | dlwrite n => exact hmt n ht
        | ret c => exact hma ht
        | dlret => exact hma ht
        | _ => exact ht
      -- the library at the position
      have hstep : ∀ n l0 ls, writesAt n t → s.linkMap.drop n = l0 :: ls → MarkedTo s G n →
          MarkedTo s1 G1 (n + 1) := by
        intro n l0 ls hw hd hn X l Y hX hlt ha hrel
        rcases Nat.lt_or_ge X.length n with hlt' | hge
        · exact hmt n hn X l Y hX hlt' ha hrel
        · rw [e3.lm hct] at hX
          rw [e3.filter] at ha
          have hn' : n = X.length := by omega
          have hd' : s.linkMap.drop n = l :: Y := by rw [hX, hn', List.drop_left]
          rw [e3.mark n l Y hw hd' ha hrel, e3.gen hmk hct]
      refine ih e2 ?_ ?_ hr
      · intro t' ht'
        rcases List.mem_or_eq_of_mem_set ht' with hx | rfl
        · exact hc t' hx
        · exact e4
      · obtain ⟨ti, h1, h2⟩ := ht
        by_cases e : k = i
        · subst e
          rw [hk] at h1
          cases h1
          refine ⟨t1, by rw [List.getElem?_set_self (List.getElem?_eq_some_iff.1 hk).1], ?_⟩
          cases t with
          | call _ _ => exact h2.elim
          | bind _ _ _ _ => exact h2.elim
          | dlcall _ => exact h2.elim
          | dlscan => exact h2.elim
          | ret c =>
            simp only [stepThread, Except.ok.injEq, Prod.mk.injEq] at e1
            rw [← e1.2]
            exact hma h2
          | dlret =>
            simp only [stepThread, Except.ok.injEq, Prod.mk.injEq] at e1
            rw [← e1.2]
            exact hma h2
          | write tb n nf =>
            cases hd : s.linkMap.drop n with
            | nil =>
              simp only [stepThread, hd, Except.ok.injEq, Prod.mk.injEq] at e1
              rw [← e1.2]
              exact hma (markedTo_all h2 hd)
            | cons l0 ls =>
              have et : t1 = .write tb (n + 1) nf := by
                simp only [stepThread, hd, bind, Except.bind] at e1
                split at e1
                · cases e1
                · simp only [Except.ok.injEq, Prod.mk.injEq] at e1; exact e1.2.symm
              rw [et]
              exact hstep n l0 ls rfl hd h2
          | dlwrite n =>
            cases hd : s.linkMap.drop n with
            | nil =>
              simp only [stepThread, hd, Except.ok.injEq, Prod.mk.injEq] at e1
              rw [← e1.2]
              exact hma (markedTo_all h2 hd)
            | cons l0 ls =>
              have et : t1 = .dlwrite (n + 1) := by
                simp only [stepThread, hd, bind, Except.bind] at e1
                split at e1
                · cases e1
                · simp only [Except.ok.injEq, Prod.mk.injEq] at e1; exact e1.2.symm
              rw [et]
              exact hstep n l0 ls rfl hd h2
        · exact ⟨ti, by rw [List.getElem?_set_ne e]; exact h1, hmono _ h2⟩

end Gotcha
