import Verif.Proof.CoreWrap
/-
The remaining operations and whole histories.
-/
namespace Gotcha
open HTable
open Spec (exportsAt firstDef insertBefore Frame Abs)

/-- GOTCHA's own four handle variables are distinct and belong to its own wrappers. -/
structure EnvOk (env : Env) (P : Addr → Option HAddr) : Prop where
  distinct : [env.hDlopen, env.hDlsym, env.hLibcMain, env.hMain].Nodup
  dlopen : P env.dlopenW = some env.hDlopen
  dlsym : P env.dlsymW = some env.hDlsym
  libcMain : P env.libcMainW = some env.hLibcMain
  main : P env.mainW = some env.hMain

/-! ### priorities in the abstract state -/

theorem touch_prioOf (A : Abs) (t n : Name) : (A.touch t).prioOf n = A.prioOf n := by
  unfold Abs.touch Abs.prioOf
  by_cases e : n = t
  · subst e; simp
  · simp only [upd_ne _ _ e]

theorem push_prio (A : Abs) (tool p u) : (A.push tool p u).1.prio = A.prio := by
  unfold Abs.push; split <;> rfl

theorem push_prioOf (A : Abs) (tool p u n) : (A.push tool p u).1.prioOf n = A.prioOf n := by
  unfold Abs.prioOf; rw [push_prio]

theorem pushAll_prioOf {om : Abs → Abs} (hom : ∀ A n, (om A).prioOf n = A.prioOf n) (tool n : Name)
    (us : List UBinding) : ∀ A : Abs, (Abs.pushAll om tool us A).1.prioOf n = A.prioOf n := by
  induction us with
  | nil => intro A; rfl
  | cons u us ih =>
    intro A
    rw [Abs.pushAll]
    dsimp only
    rw [ih, push_prioOf]
    split
    · exact hom A n
    · rfl

theorem wrap_prioOf {om : Abs → Abs} (hom : ∀ A n, (om A).prioOf n = A.prioOf n)
    (tbl : List UBinding) (tool : Option Name) (A : Abs) (n : Name) :
    (Abs.wrap om tbl tool A).1.prioOf n = A.prioOf n := by
  unfold Abs.wrap
  dsimp only
  rw [pushAll_prioOf hom, touch_prioOf]

theorem onMain_prioOf (env : Env) (A : Abs) (n : Name) : (A.onMain env).prioOf n = A.prioOf n := by
  unfold Abs.onMain
  split
  · rfl
  · dsimp only
    rw [wrap_prioOf (om := id) (fun _ _ => rfl), wrap_prioOf (om := id) (fun _ _ => rfl)]
    rfl

/-! ### "main" -/

theorem onMainReal_spec {C : Ctx} (w : World C.env C.U) (henv : C.hon → EnvOk C.env C.P) :
    OnMain C (onMainReal C.env) (Abs.onMain C.env) (fun b => b = true) True where
  quietA := by
    intro A hA
    simp [Abs.onMain, hA]
  step := by
    intro s G A h hpot
    cases hm : s.mainWrapped with
    | true =>
      have hA : A.mainWrapped = true := by rw [h.mainW]; exact hm
      refine ⟨s, G, by simp [onMainReal, hm], ?_, Keep.refl .., rfl, rfl, fun _ => Nat.le_refl _,
        fun _ => ⟨rfl, rfl⟩, fun hc => absurd rfl hc, NewB.refl _ _ _⟩
      simp only [Abs.onMain, hA, if_true]
      exact h
    | false =>
      have hA : A.mainWrapped = false := by rw [h.mainW]; exact hm
      have h0 : Inv C { s with mainWrapped := true } G { A with mainWrapped := true } :=
        { tools := h.tools
          bind := h.bind
          fn := h.fn
          nf := h.nf
          nfm := h.nfm
          lib := h.lib
          wr := h.wr
          objs := h.objs
          nd := h.nd
          placed := h.placed
          vd := h.vd
          hon := h.hon
          nfr := h.nfr
          fresh := fun _ e => by cases e
          onch := h.onch
          slots := h.slots
          prio := h.prio
          stack := h.stack
          real := h.real
          libs := h.libs
          vdso := h.vdso
          mainW := rfl
          init := h.init
          init' := h.init' }
      have hk0 : Keep C s G { s with mainWrapped := true } G :=
        ⟨rfl, fun hy => hy, List.prefix_refl _, fun hy => ⟨_, hy, Int.le_refl _⟩, fun hy => hy, rfl,
          rfl, fun _ => rfl, fun _ => rfl, fun _ => Or.inl rfl, fun _ hy => hy,
          fun _ => Nat.le_refl _⟩
      have hpot0 : pot { s with mainWrapped := true } + 2 = pot s := by
        simp [pot, hm]
      obtain ⟨s1, G1, c1, e1, e2, -, e4, e5, e6, e7, -, e9, -, -⟩ := wrapCore_spec w (onMain_id C) h0
        (libcMainTable C.env) (some (nm "gotcha"))
        (fun hh =>
          { nodup := by simp [libcMainTable]
            prog := by
              intro u hu
              simp only [libcMainTable, List.mem_singleton] at hu
              subst hu; exact (henv hh).libcMain
            unused := by
              intro b t u hb
              simp only [libcMainTable, List.map_cons, List.map_nil, List.mem_singleton]
              exact (h.fresh hh hm hb).1
            fresh := fun e => by cases e })
        (fun hs => by have := hpot hs; omega)
        (fun _ => Or.inr (Or.inl trivial))
      obtain ⟨s2, G2, c2, f1, f2, -, f4, f5, f6, f7, -, f9, f10, -⟩ := wrapCore_spec w (onMain_id C)
        e2 (mainTable C.env) (some (nm "gotcha"))
        (fun hh =>
          { nodup := by simp [mainTable]
            prog := by
              intro u hu
              simp only [mainTable, List.mem_singleton] at hu
              subst hu; exact (henv hh).main
            unused := by
              intro b t u hb
              simp only [mainTable, List.map_cons, List.map_nil, List.mem_singleton]
              rcases e9 b t u hb with hb | hb | ⟨hb, -⟩
              · exact (h.fresh hh hm hb).2
              · simp only [libcMainTable, List.mem_singleton] at hb
                subst hb
                have := (henv hh).distinct
                simp at this
                tauto
              · exact absurd hb id
            fresh := fun e => by rw [e4.mainW rfl] at e; cases e })
        (fun hs => by have := hpot hs; have := e7 hs; omega)
        (fun _ => Or.inr (Or.inl trivial))
      have hAeq : Abs.onMain C.env A =
          (Abs.wrap id (mainTable C.env) (some (nm "gotcha"))
            (Abs.wrap id (libcMainTable C.env) (some (nm "gotcha"))
              { A with mainWrapped := true }).1).1 := by
        simp [Abs.onMain, hA]
      refine ⟨s2, G2, ?_, by rw [hAeq]; exact f2, (hk0.trans e4).trans f4, f5.trans e5,
        f6.trans e6, ?_, (fun hc => by cases hc), ?_, ?_⟩
      · simp only [onMainReal, hm, wrapInner, e1, bind, Except.bind, f1, Bool.false_eq_true, if_false]
      · intro hs
        have := hpot hs; have := e7 hs; have := f7 hs
        omega
      · intro _
        obtain ⟨hd, g1, g2⟩ := f10 ⟨nm "main", C.env.mainW, C.env.hMain⟩ (by simp [mainTable])
        refine ⟨hd, g1, ?_⟩
        rw [hAeq]; exact g2
      · intro b t u hb
        rcases f9 b t u hb with hb | hb | ⟨hb, -⟩
        · rcases e9 b t u hb with hb | hb | ⟨hb, -⟩
          · exact Or.inl hb
          · simp only [libcMainTable, List.mem_singleton] at hb
            subst hb; exact Or.inr ⟨trivial, Or.inl rfl⟩
          · exact absurd hb id
        · simp only [mainTable, List.mem_singleton] at hb
          subst hb; exact Or.inr ⟨trivial, Or.inr rfl⟩
        · exact absurd hb id

/-! ### states between events -/

/-- Before the first use of GOTCHA. -/
structure Pre (C : Ctx) (seen : Lib → Prop) (s : State) (A : Abs) : Prop where
  st : s = { State.start s.linkMap s.mem s.wr with filter := s.filter }
  abs : A = Abs.start s.linkMap
  objs : ∀ l ∈ s.linkMap, C.U l ∧ seen l
  nd : (s.linkMap.map (·.lm)).Nodup
  placed : Placed s.linkMap
  cover : ∀ l ∈ s.linkMap, ∀ p ∈ rlOf l,
    s.wr (l.addr + p.1) = true ∨ markedBy C.env l (l.addr + p.1)
  ne : s.linkMap ≠ []
  slots : C.sl → Admits s.filter C.good ∧ SlotCons s.linkMap

/-- GOTCHA's own bindings of dlopen and dlsym exist. -/
def DlB (env : Env) (s : State) : Prop := ∀ u ∈ dlTable env, ∃ b t, btu s.binds b = some (t, u)

/-- Between two events, once GOTCHA is initialised. -/
structure Post (C : Ctx) (seen : Lib → Prop) (n : Nat) (s : State) (G : Gh) (A : Abs) : Prop where
  inv : Inv C s G A
  pend : ∀ b, ¬ G.pend b
  dirty : ∀ f, ¬ G.dirty f
  seen : G.seen = seen
  vd : s.vdso = some C.v
  pot : C.sl → pot s ≤ n
  gen : C.sl → 1 ≤ s.gen.toNat
  dlb : DlB C.env s

/-- Ghost data before the first use of GOTCHA. -/
def Gh.start (seen : Lib → Prop) : Gh where
  ch _ := []
  real _ := none
  nf _ := none
  lm _ := none
  pend _ := False
  dirty _ := False
  seen := seen

/-- The invariant when the tables have just been created. -/
theorem pre_inv {C : Ctx} (w : World C.env C.U) {seen s A} (h : Pre C seen s A)
    (hv : C.v = C.env.vdsoOf s.linkMap) :
    ∃ lt ft nt, HTable.create C.env.page 128 = .ok lt ∧ HTable.create C.env.page 4096 = .ok ft ∧
      HTable.create C.env.page 128 = .ok nt ∧
      Inv C { s with inited := true, libTab := lt, funTab := ft, notFound := nt } (Gh.start seen)
        { A with inited := true, vdso := C.env.vdsoOf A.libs } := by
  obtain ⟨lt, hlt, htl⟩ := create_lib C.U w.page48
    (initial := 128) (by omega)
  obtain ⟨ft, hft, htf⟩ := create_tab (K := Name) (D := BId) strhash w.page48
    (initial := 4096) (by omega)
  obtain ⟨nt, hnt, htn⟩ := create_tab (K := Name) (D := BId) strhash w.page48
    (initial := 128) (by omega)
  have hin : s.inited = false := by rw [h.st]; rfl
  have hbinds : s.binds = [] := by rw [h.st]; rfl
  have htools : s.tools = {} := by rw [h.st]; rfl
  have hmainW : s.mainWrapped = false := by rw [h.st]; rfl
  have hvd : s.vdso = none := by rw [h.st]; rfl
  have hgen : s.gen = 0 := by rw [h.st]; rfl
  have hlibs : s.libs = [] := by rw [h.st]; rfl
  have hbn : ∀ {b y}, btu s.binds b = some y → False := by
    intro b y hb; rw [hbinds] at hb; simp [btu] at hb
  refine ⟨lt, ft, nt, hlt, hft, hnt, ?_⟩
  exact
    { tools := ⟨[], by rw [show _ = _ from htools]; exact Tools.empty_ok⟩
      bind :=
        { chain := fun f => rfl
          named := fun hb => by cases hb
          okt := fun hb => (hbn hb).elim
          okh := fun hb => (hbn hb).elim
          pendb := fun hb => hb.elim
          pendn := fun hb => hb.elim
          pendc := fun hb => hb.elim }
      fn := htf
      nf := htn
      nfm := fun hb => by cases hb
      lib :=
        { tab := htl
          bound := fun hb => by cases hb
          inj := fun hb => by cases hb
          seen := fun hb => by cases hb
          own := fun hb => by cases hb }
      wr :=
        { cover := h.cover
          flag := by intro l hl rec hr; simp [recAt, Gh.start] at hr }
      objs := h.objs
      nd := h.nd
      placed := h.placed
      vd := Or.inr ⟨hvd, hv.symm⟩
      hon := fun _ =>
        { own := fun hb => (hbn hb).elim
          prog := fun hb => (hbn hb).elim
          wch := fun f => trivial
          pend := fun hb => hb.elim }
      nfr := by intro _ f; simp [Gh.start]
      fresh := fun _ _ => fun hb => (hbn hb).elim
      onch := by
        intro _ b hb
        replace hb : b < s.binds.length := hb
        rw [hbinds] at hb; simp at hb
      slots := fun hs =>
        { all := (h.slots hs).1
          cons := (h.slots hs).2
          gens := by
            intro l
            simp [genAt, recAt, Gh.start]
          slot := by intro l hl _ p hp hd b hb; cases hb }
      prio := by
        intro n v
        rw [h.abs]
        show none = some v ↔ (n, v) ∈ Tools.np s.tools.store
        rw [htools]
        simp [Tools.np]
      stack := by intro _ f; rw [h.abs]; rfl
      real := by intro _ f; rw [h.abs]; rfl
      libs := by rw [h.abs]; rfl
      vdso := by rw [hv, h.abs]; rfl
      mainW := by rw [h.abs]; exact hmainW.symm
      init := rfl
      init' := rfl }

/-- GOTCHA's own table for dlopen and dlsym is that of a well-behaved client. -/
theorem dl_honT {C : Ctx} (henv : EnvOk C.env C.P) {s : State} (hb : s.binds = []) :
    HonT C s (dlTable C.env) where
  nodup := by
    have := henv.distinct
    simp [dlTable] at this ⊢
    tauto
  prog := by
    intro u hu
    simp only [dlTable, List.mem_cons, List.not_mem_nil, or_false] at hu
    rcases hu with rfl | rfl
    · exact henv.dlopen
    · exact henv.dlsym
  unused := fun b t u hx => by rw [hb] at hx; simp [btu] at hx
  fresh := by
    intro _ u hu
    have := henv.distinct
    simp only [dlTable, List.mem_cons, List.not_mem_nil, or_false] at hu
    simp at this
    rcases hu with rfl | rfl <;> dsimp only <;> tauto

theorem dl_not_main (env : Env) : ∀ u ∈ dlTable env, u.name ≠ nm "main" := by
  intro u hu
  simp only [dlTable, List.mem_cons, List.not_mem_nil, or_false] at hu
  rcases hu with rfl | rfl
  · show nm "dlopen" ≠ nm "main"; decide +kernel
  · show nm "dlsym" ≠ nm "main"; decide +kernel

/-- First call into GOTCHA. -/
theorem init_spec {C : Ctx} (w : World C.env C.U) (henv : C.hon → EnvOk C.env C.P) {seen s A}
    (h : Pre C seen s A) (hv : C.v = C.env.vdsoOf s.linkMap) :
    ∃ s' G', gotchaInit C.env s = .ok s' ∧ Post C seen 3 s' G' (A.init C.env) ∧
      s'.linkMap = s.linkMap ∧ s'.filter = s.filter ∧
      MemStep s.filter s.linkMap s.mem s'.mem s'.binds G'.ch ∧
      (∀ a, s.wr a = true → s'.wr a = true) := by
  obtain ⟨lt, ft, nt, hlt, hft, hnt, h0⟩ := pre_inv w h hv
  have hin : s.inited = false := by rw [h.st]; rfl
  have hbinds : s.binds = [] := by rw [h.st]; rfl
  have hmainW : s.mainWrapped = false := by rw [h.st]; rfl
  have hgen : s.gen = 0 := by rw [h.st]; rfl
  obtain ⟨s1, G1, c1, e1, e2, -, e4, e5, e6, e7, e8, -, -, e11, e12⟩ := wrapCore_spec w
    (onMainReal_spec w henv) h0 (dlTable C.env) (some (nm "gotcha"))
    (fun hh => dl_honT (henv hh) hbinds)
    (by intro _; simp [pot, hgen, hmainW])
    (fun _ => Or.inl (dl_not_main C.env))
  have hA : A.init C.env = (Abs.wrap (Abs.onMain C.env) (dlTable C.env) (some (nm "gotcha"))
      { A with inited := true, vdso := C.env.vdsoOf A.libs }).1 := by
    unfold Abs.init
    rw [show A.inited = false by rw [h.abs]; rfl]
    simp
  refine ⟨s1, G1, ?_, ?_, e4.linkMap, e4.filter, e4.mem, e4.wrs⟩
  · simp only [gotchaInit, hin, hlt, hft, hnt, wrapBody, bind, Except.bind, e1,
      Bool.false_eq_true, if_false]
  · refine ⟨by rw [hA]; exact e2, ?_, ?_, ?_, ?_, ?_, ?_, e11⟩
    · intro b hb; rw [e5] at hb; exact hb
    · intro f hf; rw [e6] at hf; exact hf
    · rw [e4.seen]; rfl
    · have hne := e8 ⟨nm "dlopen", C.env.dlopenW, C.env.hDlopen⟩ _ rfl
        (by show nm "dlopen" ≠ nm "main"; decide +kernel) rfl h.ne
      rcases e2.vd with hx | ⟨hx, -⟩
      · exact hx
      · exact absurd hx hne
    · intro hs
      have := e7 hs
      simpa [pot, hgen, hmainW] using this
    · intro hs
      have := e12 hs
      omega

end Gotcha
