import Verif.Proof.TraceRun
/-
A call of `gotcha_wrap` at the end of a history, as seen by a caller of one function.
-/
namespace Gotcha
open HTable Tr
open Spec (exportsAt firstDef insertBefore Frame Abs wrappers Safe Pos)

theorem lk_nil {P : Addr → Option HAddr} {bid r σ} : Lk P bid r σ [] := trivial

theorem pushAll_other (om : Abs → Abs) (tool : Name) {f : Name} (us : List UBinding)
    (hm : ∀ u ∈ us, u.name ≠ nm "main") (hf : f ∉ us.map UBinding.name) : ∀ A : Abs,
    (Abs.pushAll om tool us A).1.stack f = A.stack f := by
  induction us with
  | nil => intro A; rfl
  | cons u us ih =>
    intro A
    rw [List.map_cons, List.mem_cons, not_or] at hf
    rw [Abs.pushAll]
    dsimp only
    rw [ih (fun v hv => hm v (by simp [hv])) hf.2, if_neg (hm u (by simp))]
    exact (push_other A tool _ u hf.1).1

/-- A slot of a wrapped function leads to the head of its stack. -/
theorem post_slot {C : Ctx} {seen n s G A} (h : Post C seen n s G A) (hh : C.hon) (hsl : C.sl)
    {l : Lib} {off : Addr} {f : Name} (hl : l ∈ s.linkMap) (hgd : C.good l) (hoff : (off, f) ∈ rlOf l)
    {r : Addr} (hne : A.stack f ≠ []) : s.mem (l.addr + off) = hdW r (A.stack f) := by
  have hst := h.inv.stack hh f
  cases hc : G.ch f with
  | nil => rw [hst, hc] at hne; exact absurd rfl hne
  | cons b bs =>
    have := (h.inv.slots hsl).slot l hl hgd (off, f) hoff (h.dirty f) b (by rw [hc]; rfl)
    obtain ⟨t, u, hb, -⟩ := h.inv.bind.named (f := f) (b := b) (by rw [hc]; simp)
    rw [hst, hc]
    simp [bwr, hb] at this
    simp [hdW, frameOf, hb, this]

theorem gotchaWrapT_trace {C : Ctx} (w : World C.env C.U) (henv : EnvOk C.env C.P) (hh : C.hon)
    (hsl : C.sl) {seen n s A} (h : Top C seen n s A) (hn3 : 3 ≤ n) (hn : n + 1 < 2 ^ 32)
    (tbl : List UBinding) (tool : Option Name) (hT : HonA C.env C.P (A.init C.env) tbl)
    (hq : (∀ u ∈ tbl, u.name ≠ nm "main") ∨ A.mainWrapped = true) {f : Name} {r : Addr}
    (hf : s.inited = true ∨ f ∉ (dlTable C.env).map UBinding.name)
    (honce : Once f tbl)
    (hr : (A.step C.env (.wrap tbl tool)).1.stack f = [] ∨
      (A.step C.env (.wrap tbl tool)).1.real f = some r)
    {tr res} (he : gotchaWrapT C.env tbl tool s = .ok (tr, res)) {l : Lib} {off : Addr}
    (hl : l ∈ s.linkMap) (hoff : (off, f) ∈ rlOf l) :
    ∃ bid T0 T1, tr = T0 ++ T1 ∧ Phases C.P bid r (l.addr + off) (s.mem (l.addr + off)) (A.stack f)
        ((A.step C.env (.wrap tbl tool)).1.stack f) (s :: T0) T1 ∧
      (A.stack f ≠ [] → A.real f = some r) ∧ ∀ x b, res.1.handles x = some b → bid x = b := by
  have hqT : ∀ s : State, (fun b => b = true) s.mainWrapped → onMainRealT C.env s = pure s := by
    intro s hs
    simp only [onMainRealT, if_pos hs]
  rcases h with h | ⟨v, G, h⟩
  · -- the first use of GOTCHA
    have hin : s.inited = false := by rw [h.st]; rfl
    have hfd : f ∉ (dlTable C.env).map UBinding.name := by
      rcases hf with hf | hf
      · rw [hin] at hf; cases hf
      · exact hf
    have hA0 : A.stack f = [] := by rw [h.abs]; rfl
    have hbinds : s.binds = [] := by rw [h.st]; rfl
    have hmainW : s.mainWrapped = false := by rw [h.st]; rfl
    have hgen : s.gen = 0 := by rw [h.st]; rfl
    set C' := C.at (C.env.vdsoOf s.linkMap) with hC'
    have h' : Pre C' seen s A :=
      ⟨h.st, h.abs, h.objs, h.nd, h.placed, h.cover, h.ne, h.slots⟩
    obtain ⟨lt, ft, nt, hlt, hft, hnt, h0⟩ := pre_inv (C := C') w h' rfl
    obtain ⟨s1, G1, e1, e2, e3, -, e5, -⟩ := init_spec (C := C') w (fun _ => henv) h' rfl
    have hAi : A.init C.env = (Abs.wrap (Abs.onMain C.env) (dlTable C.env) (some (nm "gotcha"))
        { A with inited := true, vdso := C.env.vdsoOf A.libs }).1 := by
      unfold Abs.init
      rw [show A.inited = false by rw [h.abs]; rfl]
      simp
    -- the registration of dlopen and dlsym
    obtain ⟨ti, si, t2, f1, f2, rfl⟩ := ok_bind he
    have hsi : si = s1 := by
      have := erase_gotchaInit C.env s
      rw [f1, e1] at this
      exact Except.ok.inj this
    rw [hsi] at f1 f2
    clear hsi
    have hinit : ∃ res', wrapCoreT C.env (onMainRealT C.env) (dlTable C.env) (some (nm "gotcha"))
        { s with inited := true, libTab := lt, funTab := ft, notFound := nt } = .ok (ti, res') := by
      unfold gotchaInitT at f1
      rw [if_neg (by rw [hin]; simp), hlt, hft, hnt] at f1
      obtain ⟨u1, a1, u2, g1, g2, rfl⟩ := ok_bind f1
      cases g1
      obtain ⟨u3, a3, u4, g3, g4, rfl⟩ := ok_bind g2
      cases g3
      obtain ⟨u5, a5, u6, g5, g6, rfl⟩ := ok_bind g4
      cases g5
      obtain ⟨u7, a7, u8, g7, g8, rfl⟩ := ok_bind g6
      cases g8
      exact ⟨a7, by simpa using g7⟩
    obtain ⟨res', hinit⟩ := hinit
    have hAf : (A.init C.env).stack f = [] := by
      rw [hAi, ← hA0]
      exact pushAll_other _ _ _ (dl_not_main C.env) hfd _
    obtain ⟨bid0, U0, U1, hU, hph0, -, hsame, -⟩ := wrapCoreT_trace (C := C') w hh hsl
      (onMainReal_spec (C := C') w (fun _ => henv)) (erase_onMainReal C.env) hqT h0 (dlTable C.env)
      (some (nm "gotcha")) (dl_honT (C := C') henv hbinds) (by simp [pot, hgen, hmainW])
      (Or.inl (dl_not_main C.env)) (f := f) (r := r)
      (by
        unfold Once
        rw [List.count_eq_zero.2 hfd]
        omega) (Or.inl (by
          show (Abs.wrap (Abs.onMain C.env) _ _ _).1.stack f = []
          rw [← hAi]; exact hAf)) hinit (l := l) (off := off) hl hoff
    -- the client's table
    have hm1 : (A.init C.env).mainWrapped = s1.mainWrapped := e2.inv.mainW
    have hq1 : (∀ u ∈ tbl, u.name ≠ nm "main") ∨ s1.mainWrapped = true := by
      rcases hq with hq | hq
      · exact Or.inl hq
      · rw [h.abs] at hq; cases hq
    obtain ⟨bid, T0, T1, hT', hph, -, -, hbid⟩ := wrapCoreT_trace (C := C') w hh hsl
      (onMainReal_spec (C := C') w (fun _ => henv)) (erase_onMainReal C.env) hqT e2.inv tbl tool
      (e2.honT hh hT) (by have := e2.pot hsl; omega) hq1 honce hr f2 (l := l) (off := off)
      (by rw [e3]; exact hl) hoff
    have hmem0 : ∀ σ ∈ ti, σ.mem (l.addr + off) = s.mem (l.addr + off) := by
      intro σ hσ
      rw [hU] at hσ
      rcases List.mem_append.1 hσ with hσ | hσ
      · exact hph0.mem0 σ (List.mem_cons_of_mem _ hσ)
      · rcases hph0.mem1 σ hσ with hx | ⟨hx, -⟩
        · exact hx
        · exfalso
          apply hx
          show (Abs.wrap (Abs.onMain C.env) _ _ _).1.stack f = []
          rw [← hAi]; exact hAf
    have hmem1 : s1.mem (l.addr + off) = s.mem (l.addr + off) := by
      rcases e5 (l.addr + off) with hx | ⟨l', q, b, hacc, hq', ha, hb, -⟩
      · exact hx
      · exfalso
        have hcons := (h.slots hsl).2 l hl l' (by obtain ⟨X, Y, hX, -⟩ := hacc; rw [show s.linkMap = _ from hX]; simp) (off, f) hoff q hq' ha
        dsimp only at hcons
        rw [← hcons] at hb
        have hst := e2.inv.stack hh f
        rw [show C'.env = C.env from rfl, hAf] at hst
        rw [List.map_eq_nil_iff.1 hst.symm] at hb
        cases hb
    rw [hmem1, hAf] at hph
    rw [hA0]
    refine ⟨bid, ti ++ T0, T1, by rw [hT']; simp, ⟨hph.ins, fun _ _ => lk_nil, hph.lk1, ?_, hph.mem1, hph.ord⟩,
      fun hc => absurd rfl hc, hbid⟩
    intro σ hσ
    rcases List.mem_cons.1 hσ with rfl | hσ
    · rfl
    · rcases List.mem_append.1 hσ with hσ | hσ
      · exact hmem0 σ hσ
      · exact hph.mem0 σ (List.mem_cons_of_mem _ hσ)
  · have hin : s.inited = true := h.inv.init
    have hAi : A.init C.env = A := by simp [Abs.init, h.inv.init']
    have he' : wrapCoreT C.env (onMainRealT C.env) tbl tool s = .ok (tr, res) := by
      obtain ⟨ti, si, t2, f1, f2, rfl⟩ := ok_bind he
      rw [gotchaInitT, if_pos hin] at f1
      cases f1
      simpa using f2
    have hr' := hr
    simp only [Abs.step, hAi] at hr'
    rw [hAi] at hT
    obtain ⟨bid, T0, T1, hT', hph, hreal, -, hbid⟩ := wrapCoreT_trace (C := C.at v) w hh hsl
      (onMainReal_spec (C := C.at v) w (fun _ => henv)) (erase_onMainReal C.env) hqT h.inv tbl tool
      (h.honT hh hT) (by have := h.pot hsl; omega) (by rw [← h.inv.mainW]; exact hq) honce hr' he'
      (l := l) (off := off) hl hoff
    refine ⟨bid, T0, T1, hT', ?_, fun hne => hreal.resolve_left hne, hbid⟩
    simp only [Abs.step, hAi]
    exact hph

/-- A binding of a function puts it on a stack. -/
theorem post_bound {C : Ctx} {seen n s G A} (h : Post C seen n s G A) (hh : C.hon)
    {x : IBinding} (hx : x ∈ s.binds) : A.stack x.user.name ≠ [] := by
  obtain ⟨b, hb⟩ := List.mem_iff_getElem?.1 hx
  have hb' := btu_some hb
  rcases h.inv.onch hh b (btu_lt hb') with hp | ⟨f, hf⟩
  · exact absurd hp (h.pend b)
  · obtain ⟨t, u, hb2, hn⟩ := h.inv.bind.named hf
    rw [hb'] at hb2
    cases hb2
    rw [hn, h.inv.stack hh]
    intro hc
    rw [List.map_eq_nil_iff.1 hc] at hf
    cases hf

end Gotcha

namespace Gotcha.Spec
open Gotcha Tr

/-- The end of a history of which the last event is a call of `gotcha_wrap`. -/
theorem history_moment {p : Process} (ok : p.Ok) {ops : List Op} {tbl : List UBinding}
    {tool : Option Name} (h : History p True (ops ++ [.wrap tbl tool])) {s os}
    (hrun : run p.env ops p.start = .ok (s, os)) {f : Name} {r : Addr}
    (hq : (∀ u ∈ tbl, u.name ≠ nm "main") ∨ ∃ o ∈ ops, hasMain (tableOf o))
    (hf : ops.any isApi = true ∨ (f ≠ nm "dlopen" ∧ f ≠ nm "dlsym"))
    (honce : (tbl.map UBinding.name).count f ≤ 1)
    (hr : registered p.env (ops ++ [.wrap tbl tool]) f = [] ∨
      realAfter p.env p.libs (ops ++ [.wrap tbl tool]) f = some r)
    (hPr : p.P r = none) {l : Lib} {off : Addr} (hl : l ∈ libsAfter p.libs ops)
    (hoff : (off, f) ∈ rlOf l)
    (hPv : registered p.env ops f = [] → p.P (s.mem (l.addr + off)) = none) :
    ∃ tr s' c old new, gotchaWrapT p.env tbl tool s = .ok (tr, (s', c)) ∧
      gotchaWrap p.env tbl tool s = .ok (s', c) ∧
      Calls p.P s (s.mem (l.addr + off)) old ∧ Calls p.P s' (s'.mem (l.addr + off)) new ∧
      Safe p.P (fun path => path = old ∨ path = new) (s :: tr) (.slot (l.addr + off)) ∧
      ∃ X Y, s :: tr = X ++ Y ∧ Safe p.P (fun path => path = old) X (.slot (l.addr + off)) ∧
        Safe p.P (fun path => path = new) Y (.slot (l.addr + off)) := by
  set a := l.addr + off with ha
  obtain ⟨s0, s', e1, e2, e3, e4, e5, e6⟩ := history_step ok h
  rw [hrun] at e1
  cases e1
  obtain ⟨-, hop⟩ := valid_snoc ops _ (start_valid (hon := True) h.toEvents fun _ => h.honest)
  have hstk : ∀ ops g, stackOf p ops g = [] ↔ registered p.env ops g = [] := by
    intro ops g
    have := stackOf_perm p ops g
    constructor
    · intro hx; rw [hx] at this; exact List.Perm.nil_eq this ▸ rfl
    · intro hx; rw [hx] at this; exact this.eq_nil
  obtain ⟨c, hw⟩ : ∃ c, gotchaWrap p.env tbl tool s = .ok (s', c) := by
    simp only [stepOp, bind, Except.bind] at e2
    cases hg : gotchaWrap p.env tbl tool s with
    | error e => simp [hg] at e2
    | ok z =>
      simp only [hg, Except.ok.injEq, Prod.mk.injEq] at e2
      exact ⟨z.2, by rw [← e2.1]⟩
  obtain ⟨tr, htr⟩ := erase_ok ((erase_gotchaWrap p.env tbl tool s).trans hw)
  have hsnoc := run_snoc p.env ops (.wrap tbl tool) p.abs
  have hst' : (((Abs.run p.env ops p.abs).1.step p.env (.wrap tbl tool)).1).stack f =
      stackOf p (ops ++ [.wrap tbl tool]) f := by
    unfold stackOf; rw [hsnoc]
  have hlen : ops.length + 1 + 3 < 2 ^ 32 := by
    have := h.short trivial
    rwa [List.length_append] at this
  have hlm : l ∈ s.linkMap := by rw [← top_libs e4, libs_run]; exact hl
  obtain ⟨bid, T0, T1, rfl, ph, hreal, -⟩ := gotchaWrapT_trace (C := p.ctx True True) ok.world h.honest.own
    trivial trivial e4 (by omega) (by omega) tbl tool (hop.1 trivial)
    (hq.imp id (fun hx => by rw [abs_start]; exact (run_mainW _ _ _).2 hx)) (f := f) (r := r)
    (by
      rcases hf with hf | hf
      · left
        rw [← top_inited e4, abs_start, (run_prio p.env p.libs ops).2]; exact hf
      · right
        simp only [dlTable, List.map_cons, List.map_nil, List.mem_cons, List.not_mem_nil, or_false,
          not_or]
        exact hf)
    honce
    (by
      rcases hr with hr | hr
      · left
        exact hst'.trans ((hstk _ _).2 hr)
      · right
        rw [← real_run, hsnoc] at hr
        exact hr) htr hlm hoff
  rw [show (Abs.step (p.ctx True True).env _ _).1.stack f = _ from hst'] at ph
  obtain ⟨hv, -, -⟩ := history_view ok h.prefix hrun
  obtain ⟨hv', -, -⟩ := history_view ok h e3
  have hslot : stackOf p ops f ≠ [] → s.mem a = hdW r (stackOf p ops f) := by
    intro hne
    rcases e4 with e4 | ⟨v, G, e4⟩
    · exfalso; apply hne
      unfold stackOf
      rw [e4.abs]; rfl
    · exact post_slot e4 trivial trivial hlm trivial hoff hne
  have hpost' : ∃ v G, Post ((p.ctx True True).at v) (seenRun p.seen (ops ++ [.wrap tbl tool]))
      (3 + ops.length + 1) s' G (Abs.run p.env (ops ++ [.wrap tbl tool]) p.abs).1 := by
    rcases e5 with e5 | e5
    · exfalso
      have : (Abs.run p.env (ops ++ [.wrap tbl tool]) p.abs).1.inited = true := by
        rw [abs_start, (run_prio p.env p.libs _).2]
        simp [isApi]
      rw [e5.abs] at this
      cases this
    · exact e5
  obtain ⟨v', G', hpost'⟩ := hpost'
  have hlm' : l ∈ s'.linkMap := by rw [e6.linkMap]; exact hlm
  have hold : Calls p.P s (s.mem a) (pathOf (s.mem a) r (stackOf p ops f)) := by
    cases hD : stackOf p ops f with
    | nil => exact Calls.stop (hPv ((hstk _ _).1 hD))
    | cons fr D =>
      rw [hslot (by rw [hD]; simp), hD]
      exact view_calls hv (hreal (by
        show stackOf p ops f ≠ []
        rw [hD]; simp)) hPr (fr :: D) [] hD fr D rfl
  have hnew : Calls p.P s' (s'.mem a)
      (pathOf (s.mem a) r (stackOf p (ops ++ [.wrap tbl tool]) f)) := by
    cases hD : stackOf p (ops ++ [.wrap tbl tool]) f with
    | nil =>
      have hD0 : stackOf p ops f = [] := by
        by_contra hc
        have := (step_grow p.env (.wrap tbl tool) (Abs.run p.env ops p.abs).1).ne hc
        rw [hst', hD] at this
        exact this rfl
      have hsame : s'.mem a = s.mem a := by
        rcases e6.mem a with hx | ⟨l', q, ⟨X, Y, hX, -⟩, hq', ha', x, hx, hn, -⟩
        · exact hx
        · exfalso
          have hl' : l' ∈ s'.linkMap := by rw [e6.linkMap, hX]; simp
          have := (hpost'.inv.slots trivial).cons l hlm' l' hl' (off, f) hoff q hq' ha'
          have hb := post_bound hpost' trivial hx
          rw [hn, ← this] at hb
          exact hb hD
      rw [hsame]
      exact Calls.stop (hPv ((hstk _ _).1 hD0))
    | cons fr D =>
      have hne : stackOf p (ops ++ [.wrap tbl tool]) f ≠ [] := by rw [hD]; simp
      have hm : s'.mem a = hdW r (stackOf p (ops ++ [.wrap tbl tool]) f) :=
        post_slot hpost' trivial trivial hlm' trivial hoff hne
      have hrr : realAfter p.env p.libs (ops ++ [.wrap tbl tool]) f = some r :=
        hr.resolve_left (fun hx => hne ((hstk _ _).2 hx))
      rw [hm, hD]
      exact view_calls hv' (by rw [real_run]; exact hrr) hPr (fr :: D) [] hD fr D rfl
  refine ⟨_, s', c, _, _, htr, hw, hold, hnew, ?_⟩
  exact ⟨safe_slot (T0 := s :: T0) ph.ins (fun _ => hPr) ph.lk0 ph.lk1 ph.mem0 ph.mem1
    (fun hx => hPv ((hstk _ _).1 hx)) hslot, ph.moment hPr (fun hx => hPv ((hstk _ _).1 hx)) hslot⟩

theorem history_trace {p : Process} (ok : p.Ok) {ops : List Op} {tbl : List UBinding}
    {tool : Option Name} (h : History p True (ops ++ [.wrap tbl tool])) {s os}
    (hrun : run p.env ops p.start = .ok (s, os)) {f : Name} {r : Addr}
    (hq : (∀ u ∈ tbl, u.name ≠ nm "main") ∨ ∃ o ∈ ops, hasMain (tableOf o))
    (hf : ops.any isApi = true ∨ (f ≠ nm "dlopen" ∧ f ≠ nm "dlsym"))
    (honce : (tbl.map UBinding.name).count f ≤ 1)
    (hr : registered p.env (ops ++ [.wrap tbl tool]) f = [] ∨
      realAfter p.env p.libs (ops ++ [.wrap tbl tool]) f = some r)
    (hPr : p.P r = none) {l : Lib} {off : Addr} (hl : l ∈ libsAfter p.libs ops)
    (hoff : (off, f) ∈ rlOf l)
    (hPv : registered p.env ops f = [] → p.P (s.mem (l.addr + off)) = none) :
    ∃ tr s' c old new, gotchaWrapT p.env tbl tool s = .ok (tr, (s', c)) ∧
      gotchaWrap p.env tbl tool s = .ok (s', c) ∧
      Calls p.P s (s.mem (l.addr + off)) old ∧ Calls p.P s' (s'.mem (l.addr + off)) new ∧
      Safe p.P (fun path => path = old ∨ path = new) (s :: tr) (.slot (l.addr + off)) := by
  obtain ⟨tr, s', c, old, new, h1, h2, h3, h4, h5, -⟩ :=
    history_moment ok h hrun hq hf honce hr hPr hl hoff hPv
  exact ⟨tr, s', c, old, new, h1, h2, h3, h4, h5⟩

end Gotcha.Spec
