import Verif.Proof.TraceSafe
import Verif.Proof.Calls
/-
The stores of a whole call of `gotcha_wrap`, as seen by a caller of one function.
-/
namespace Gotcha
open HTable Tr
open Spec (exportsAt firstDef insertBefore Frame Abs wrappers Safe Pos)

theorem lk_chain {P : Addr → Option HAddr} {bid : HAddr → BId} {r : Addr} {s : State}
    {np : List (Name × Int)} (L : List BId) :
    WChain (bwr s.binds) (bwp s.binds) L (some r) →
    (∀ b ∈ L, ∃ t u, btu s.binds b = some (t, u) ∧ P u.wrapper = some u.handle ∧
      s.handles u.handle = some b ∧ bid u.handle = b) →
    Lk P bid r s (L.map (frameOf s.binds np)) := by
  induction L with
  | nil => intro _ _; trivial
  | cons b L ih =>
    intro hw hb
    obtain ⟨t, u, h1, h2, h3, h4⟩ := hb b (by simp)
    have hf : frameOf s.binds np b = ⟨((np[t]?).map (·.1)).getD [], u.wrapper, u.handle⟩ := by
      simp [frameOf, h1]
    have hrest := ih hw.2 (fun c hc => hb c (List.mem_cons_of_mem _ hc))
    simp only [List.map_cons, hf]
    refine ⟨h2, by rw [h4]; exact h3, ?_, hrest⟩
    dsimp only
    rw [h4]
    apply rd_of_bwp
    rw [hw.1]
    cases L with
    | nil => rfl
    | cons c L =>
      obtain ⟨t', u', g1, -⟩ := hb c (by simp)
      simp [nextVal, hdW, bwr, g1, frameOf]

section
variable {C : Ctx} {s : State} {G : Gh} {A : Abs} {bid : HAddr → BId}

/-- The bindings of a stack. -/
theorem frame_bind (h : Inv C s G A) (hh : C.hon) (hbid : ∀ {x b}, s.handles x = some b → bid x = b)
    {f : Name} {fr : Frame} (hfr : fr ∈ A.stack f) :
    bid fr.handle ∈ G.ch f ∧ s.handles fr.handle = some (bid fr.handle) ∧
      ∃ t u, btu s.binds (bid fr.handle) = some (t, u) ∧ u.handle = fr.handle := by
  rw [h.stack hh] at hfr
  obtain ⟨b, hb, rfl⟩ := List.mem_map.1 hfr
  obtain ⟨t, u, h1, -⟩ := h.bind.named hb
  have h2 := (h.hon hh).own h1
  have hf : (frameOf s.binds (Tools.np s.tools.store) b).handle = u.handle := by
    simp [frameOf, h1]
  rw [hf, hbid h2]
  exact ⟨hb, h2, t, u, h1, rfl⟩

theorem lk_of_inv (h : Inv C s G A) (hh : C.hon)
    (hbid : ∀ {x b}, s.handles x = some b → bid x = b) {f : Name} {r : Addr}
    (hr : A.stack f = [] ∨ A.real f = some r) : Lk C.P bid r s (A.stack f) := by
  rcases hr with hr | hr
  · rw [hr]; trivial
  · rw [h.stack hh]
    refine lk_chain _ ?_ ?_
    · have := (h.hon hh).wch f
      rw [← h.real hh f, hr] at this
      exact this
    · intro b hb
      obtain ⟨t, u, h1, -⟩ := h.bind.named hb
      have h2 := (h.hon hh).own h1
      exact ⟨t, u, h1, (h.hon hh).prog h1, h2, hbid h2⟩

theorem Lk.same {P r} {s σ : State} {D : List Frame} (h : Lk P bid r s D) (hs : Same s σ) :
    Lk P bid r σ D :=
  h.congr (fun _ _ => by rw [hs.handles]) (fun _ _ => hs.rd _)

theorem lk_but (h : Inv C s G A) (hh : C.hon) (hbid : ∀ {x b}, s.handles x = some b → bid x = b)
    {f : Name} {r : Addr} (hr : A.stack f = [] ∨ A.real f = some r) {b : BId} (hb : G.pend b)
    {σ : State} (hs : SameBut b s σ) : Lk C.P bid r σ (A.stack f) := by
  refine (lk_of_inv h hh hbid hr).congr (fun _ _ => by rw [hs.handles]) ?_
  intro fr hfr
  apply hs.rd
  intro e
  have := (frame_bind h hh hbid hfr).1
  rw [e] at this
  exact h.bind.pendc hb this

end

theorem push_other (A : Abs) (tool p) (u : UBinding) {f : Name} (hf : f ≠ u.name) :
    (A.push tool p u).1.stack f = A.stack f ∧ (A.push tool p u).1.real f = A.real f := by
  unfold Abs.push
  cases A.stack u.name with
  | nil => simp [upd_ne _ _ hf]
  | cons g gs => simp [upd_ne _ _ hf]

theorem push_ins (A : Abs) (tool p) (u : UBinding) :
    Ins (A.stack u.name) ((A.push tool p u).1.stack u.name) := by
  right
  unfold Abs.push
  cases hA : A.stack u.name with
  | nil => exact ⟨[], ⟨tool, u.wrapper, u.handle⟩, [], rfl, by simp⟩
  | cons g gs =>
    obtain ⟨X, Y, h1, h2, -⟩ := insertBefore_split (fun g => decide (A.prioOf g.tool < p))
      (⟨tool, u.wrapper, u.handle⟩ : Frame) (g :: gs)
    exact ⟨X, _, Y, h1, by simp only [upd_self]; exact h2⟩

theorem push_real_back (A : Abs) (tool p) (u : UBinding) {f : Name} {r : Addr}
    (h : (A.push tool p u).1.stack f = [] ∨ (A.push tool p u).1.real f = some r) :
    A.stack f = [] ∨ A.real f = some r := by
  by_cases e : A.stack f = []
  · exact Or.inl e
  · obtain ⟨h1, h2⟩ := (Spec.push_res A tool p u).keep f e
    rcases h with h | h
    · exact absurd h h1
    · exact Or.inr (by rw [← h2]; exact h)

/-- The table has the name `f` at most once. -/
def Once (f : Name) (us : List UBinding) : Prop := (us.map UBinding.name).count f ≤ 1

theorem processBindingsT_trace {C : Ctx} (w : World C.env C.U) (hh : C.hon) {om oa quiet Q}
    {omT : State → Tr State} (hom : OnMain C om oa quiet Q) (heT : ∀ s, erase (omT s) = om s)
    (hqT : ∀ s, quiet s.mainWrapped → omT s = pure s) {n : Nat} (hn : 0 < n) {t tool p}
    {D : Name → Prop} {bid : HAddr → BId} {f : Name} {r : Addr} (us : List UBinding) :
    ∀ {s : State} {G : Gh} {A : Abs} {bs : List BId} {nb m} {nf : Nat}, Inv C s G A → bs.Nodup →
      bs.map (btu s.binds) = us.map (fun u => some (t, u)) → (∀ b ∈ bs, G.pend b) →
      (Tools.np s.tools.store)[t]? = some (tool, p) → NbOk nb m → NbEnt s G p m →
      (G.dirty = fun f => D f ∨ (m f).isSome = true) → (C.sl → pot s < 2 ^ 32) →
      ((∀ u ∈ us, u.name ≠ nm "main") ∨ quiet s.mainWrapped) →
      (∀ {x b}, s.handles x = some b → bid x = b) → Once f us →
      ((Abs.pushAll oa tool us A).1.stack f = [] ∨
        (Abs.pushAll oa tool us A).1.real f = some r) →
      ∀ {tr res}, processBindingsT C.env omT n bs s nb nf = .ok (tr, res) →
    ∃ T0 T1, tr = T0 ++ T1 ∧ (∀ σ ∈ tr, σ.mem = s.mem ∧ σ.handles = s.handles) ∧
      (∀ σ ∈ T0, Lk C.P bid r σ (A.stack f)) ∧
      (∀ σ ∈ T1, Lk C.P bid r σ ((Abs.pushAll oa tool us A).1.stack f)) ∧
      Ins (A.stack f) ((Abs.pushAll oa tool us A).1.stack f) ∧
      (A.stack f = [] ∨ A.real f = some r) ∧
      (f ∉ us.map UBinding.name → (Abs.pushAll oa tool us A).1.stack f = A.stack f) ∧
      res.1.mem = s.mem ∧ res.1.handles = s.handles := by
  induction us with
  | nil =>
    intro s G A bs nb m nf h hnd hbs hpend hpp hnb hent hD hpot hq hbid honce hr tr res he
    have : bs = [] := by simpa using hbs
    subst this
    obtain ⟨rfl, rfl⟩ := ok_pure he
    exact ⟨[], [], rfl, by simp, by simp, by simp, Or.inl rfl, hr, fun _ => rfl, rfl, rfl⟩
  | cons u us ih =>
    intro s G A bs nb m nf h hnd hbs hpend hpp hnb hent hD hpot hq hbid honce hr tr res he
    cases bs with
    | nil => simp at hbs
    | cons b bs =>
    simp only [List.map_cons, List.cons.injEq] at hbs
    rw [List.nodup_cons] at hnd
    obtain ⟨s1, G1, nb1, m1, nf1, e1, e2, e3, e4, e5, e6, e7, e8, e9, e10, -⟩ :=
      processOne_spec w hom hn (nf := nf) h (hpend b (by simp)) hbs.1 hpp hnb hent hD hpot
    have hqu : u.name ≠ nm "main" ∨ quiet s.mainWrapped := hq.imp (fun hx => hx u (by simp)) id
    have hX : (if u.name = nm "main" then oa A else A) = A := by
      split
      · rename_i e
        rcases hqu with hx | hx
        · exact absurd e hx
        · exact hom.quietA (by rw [h.mainW]; exact hx)
      · rfl
    rw [hX] at e2
    have hpr : A.prioOf tool = p := prioOf_eq h hpp
    have hpa : (Abs.pushAll oa tool (u :: us) A).1 =
        (Abs.pushAll oa tool us (A.push tool p u).1).1 := by
      rw [Abs.pushAll, hpr, hX]
    rw [hpa] at hr ⊢
    rw [processBindingsT_cons] at he
    obtain ⟨t1, r1, t2, g1, g2, rfl⟩ := ok_bind he
    have hres : r1 = (s1, nb1, nf1) := by
      have := erase_processOne C.env heT n b s nb nf
      rw [e1, g1] at this
      exact Except.ok.inj this
    subst hres
    obtain ⟨x, hx, hxt, hxu⟩ := btu_get hbs.1
    have hxb : s.bind b = .ok x := by unfold State.bind; rw [hx]
    obtain ⟨T0, T1, rfl, hS⟩ := processOneT_split hxb
      (by rw [hxu]; exact (h.hon hh).own hbs.1)
      (fun e => by
        rw [hxu] at e
        rcases hqu with hy | hy
        · exact absurd e hy
        · exact hqT s hy) g1
    have hpp1 : (Tools.np s1.tools.store)[t]? = some (tool, p) := by
      obtain ⟨z, hz⟩ := e3.np
      rw [← hz, List.getElem?_append_left (List.getElem?_eq_some_iff.1 hpp).1, hpp]
    have hbs1 : bs.map (btu s1.binds) = us.map (fun u => some (t, u)) := by
      rw [← hbs.2]
      refine List.map_congr_left ?_
      intro c hc
      have hcl := h.bind.pendb (hpend c (List.mem_cons_of_mem _ hc))
      obtain ⟨t', u', hcu⟩ := btu_of_lt hcl
      rw [hcu, e3.tu hcu]
    have hpend1 : ∀ c ∈ bs, G1.pend c := by
      intro c hc
      rw [e4]
      exact ⟨hpend c (List.mem_cons_of_mem _ hc), fun e => hnd.1 (by rw [← e]; exact hc)⟩
    have hq1 : (∀ v ∈ us, v.name ≠ nm "main") ∨ quiet s1.mainWrapped := by
      refine hq.imp (fun hx v hv => hx v (List.mem_cons_of_mem _ hv)) ?_
      intro hx
      rw [(e10 hqu).1.mainW]; exact hx
    have hbid1 : ∀ {x b}, s1.handles x = some b → bid x = b := by
      intro x b hx
      rw [hS.handles] at hx; exact hbid hx
    have honce1 : Once f us := by
      unfold Once at honce ⊢
      rw [List.map_cons, List.count_cons] at honce
      omega
    obtain ⟨U0, U1, rfl, i1, i2, i3, i4, i5, i6, i7, i8⟩ := ih (nf := nf1) e2 hnd.2 hbs1 hpend1 hpp1
      e5 e6 e7 (fun hs => Nat.lt_of_le_of_lt (e8 hs) (hpot hs)) hq1 hbid1 honce1 hr g2
    have hr0 : A.stack f = [] ∨ A.real f = some r := push_real_back _ _ _ _ i5
    have hL0 : ∀ σ ∈ T0, Lk C.P bid r σ (A.stack f) := fun σ hσ =>
      lk_but h hh hbid hr0 (hpend b (by simp)) (hS.before σ hσ)
    have hL1 : ∀ σ ∈ T1, Lk C.P bid r σ ((A.push tool p u).1.stack f) := fun σ hσ =>
      (lk_of_inv e2 hh hbid1 i5).same (hS.after σ hσ)
    have hmem : ∀ σ ∈ (T0 ++ T1) ++ (U0 ++ U1), σ.mem = s.mem ∧ σ.handles = s.handles := by
      intro σ hσ
      rcases List.mem_append.1 hσ with hσ | hσ
      · rcases List.mem_append.1 hσ with hσ | hσ
        · exact ⟨(hS.before σ hσ).mem, (hS.before σ hσ).handles⟩
        · exact ⟨(hS.after σ hσ).mem.trans hS.mem, (hS.after σ hσ).handles.trans hS.handles⟩
      · obtain ⟨j1, j2⟩ := i1 σ hσ
        exact ⟨j1.trans hS.mem, j2.trans hS.handles⟩
    by_cases hf : f = u.name
    · -- the binding of `f`: no other one follows
      have hnot : f ∉ us.map UBinding.name := by
        intro hc
        unfold Once at honce
        rw [List.map_cons, List.count_cons, hf] at honce
        rw [hf, ← List.count_pos_iff] at hc
        simp at honce
        omega
      have hst := i6 hnot
      refine ⟨T0, T1 ++ (U0 ++ U1), by simp, hmem, hL0, ?_, ?_, hr0, ?_, i7.trans hS.mem,
        i8.trans hS.handles⟩
      · rw [hst]
        intro σ hσ
        rcases List.mem_append.1 hσ with hσ | hσ
        · exact hL1 σ hσ
        · rcases List.mem_append.1 hσ with hσ | hσ
          · exact i2 σ hσ
          · rw [← hst]; exact i3 σ hσ
      · rw [hst, hf]; exact push_ins A tool p u
      · intro hc; exact absurd (by rw [hf]; simp) hc
    · -- another function
      obtain ⟨k1, k2⟩ := push_other A tool p u hf
      rw [k1] at hL1 i2 i4 i6
      refine ⟨T0 ++ T1 ++ U0, U1, by simp, hmem, ?_, i3, i4, hr0, ?_, i7.trans hS.mem,
        i8.trans hS.handles⟩
      · intro σ hσ
        rcases List.mem_append.1 hσ with hσ | hσ
        · rcases List.mem_append.1 hσ with hσ | hσ
          · exact hL0 σ hσ
          · exact hL1 σ hσ
        · exact i2 σ hσ
      · intro hc
        exact i6 (fun hx => hc (by rw [List.map_cons]; exact List.mem_cons_of_mem _ hx))

theorem rd_prefix {s σ : State} (h : s.binds <+: σ.binds) {c : BId} (hc : c < s.binds.length) :
    rd σ c = rd s c := by
  obtain ⟨z, hz⟩ := h
  unfold rd
  rw [← hz, List.getElem?_append_left hc]

theorem bid_getD (H : HAddr → Option BId) {x : HAddr} {b : BId} (h : H x = some b) :
    (H x).getD 0 = b := by rw [h]; rfl

/-- A caller of `f`, through the slot at `a`, sees the stores `tr` of a call as two phases. -/
structure Phases (P : Addr → Option HAddr) (bid : HAddr → BId) (r : Addr) (a v : Addr)
    (D0 D1 : List Frame) (T0 T1 : List State) : Prop where
  ins : Ins D0 D1
  lk0 : ∀ σ ∈ T0, Lk P bid r σ D0
  lk1 : ∀ σ ∈ T1, Lk P bid r σ D1
  mem0 : ∀ σ ∈ T0, σ.mem a = v
  mem1 : ∀ σ ∈ T1, σ.mem a = v ∨ (D1 ≠ [] ∧ σ.mem a = hdW r D1)
  ord : T1.Pairwise (fun σ τ => σ.mem a = v ∨ τ.mem a = σ.mem a)

/-- A caller through a slot that does not change, on a stack that does not change. -/
theorem safe_const {P : Addr → Option HAddr} {bid r} {a v : Addr} {T : List State} {D : List Frame}
    (hL : ∀ σ ∈ T, Lk P bid r σ D) (hm : ∀ σ ∈ T, σ.mem a = v) (h0 : D = [] → P v = none)
    (h1 : D ≠ [] → v = hdW r D ∧ P r = none) : Spec.Safe P (fun path => path = pathOf v r D) T (.slot a) := by
  refine .step (fun σ tr' _ => by simp [Spec.next]) ?_
  intro σ tr' pos' hs h
  simp only [Spec.next, Option.some.injEq] at h
  subst h
  rw [hm σ (suffix_mem hs)]
  cases D with
  | nil =>
    have hn : ∀ τ, Spec.next P τ (.jump v []) = some (.done [v]) := by
      intro τ; simp [Spec.next, h0 rfl]
    refine .step (fun τ _ _ => by rw [hn]; simp) ?_
    intro τ tr2 pos2 _ h2
    rw [hn] at h2
    cases h2
    exact .done rfl
  | cons d D =>
    obtain ⟨e, hr⟩ := h1 (by simp)
    rw [e]
    exact safe_same hr (d :: D) (fun τ hτ => hL τ (hs.subset hτ)) (by simp [pathOf])

/-- A word that changes once. -/
theorem split_once {a v w : Addr} : ∀ {T : List State},
    T.Pairwise (fun σ τ => σ.mem a = v ∨ τ.mem a = σ.mem a) → (∀ σ ∈ T, σ.mem a = v ∨ σ.mem a = w) →
    ∃ A B, T = A ++ B ∧ (∀ σ ∈ A, σ.mem a = v) ∧ ∀ σ ∈ B, σ.mem a = w
  | [], _, _ => ⟨[], [], rfl, by simp, by simp⟩
  | σ :: T, hp, h => by
    rw [List.pairwise_cons] at hp
    by_cases hσ : σ.mem a = v
    · obtain ⟨A, B, rfl, h1, h2⟩ := split_once hp.2 (fun τ hτ => h τ (List.mem_cons_of_mem _ hτ))
      refine ⟨σ :: A, B, rfl, ?_, h2⟩
      intro τ hτ
      rcases List.mem_cons.1 hτ with rfl | hτ
      · exact hσ
      · exact h1 τ hτ
    · have hw : σ.mem a = w := (h σ (by simp)).resolve_left hσ
      refine ⟨[], σ :: T, rfl, by simp, ?_⟩
      intro τ hτ
      rcases List.mem_cons.1 hτ with rfl | hτ
      · exact hw
      · rw [(hp.1 τ hτ).resolve_left hσ, hw]

/-- The moment at which a slot changes over from one stack to the other. -/
theorem Phases.moment {P : Addr → Option HAddr} {bid r} {a v : Addr} {D0 D1 : List Frame}
    {T0 T1 : List State} (h : Phases P bid r a v D0 D1 T0 T1) (hr : P r = none)
    (hv0 : D0 = [] → P v = none) (hv1 : D0 ≠ [] → v = hdW r D0) :
    ∃ X Y, T0 ++ T1 = X ++ Y ∧ Spec.Safe P (fun path => path = pathOf v r D0) X (.slot a) ∧
      Spec.Safe P (fun path => path = pathOf v r D1) Y (.slot a) := by
  have same : D1 = D0 → ∀ σ ∈ T0 ++ T1, σ.mem a = v := by
    intro e σ hσ
    rcases List.mem_append.1 hσ with hσ | hσ
    · exact h.mem0 σ hσ
    · rcases h.mem1 σ hσ with e1 | ⟨e1, e2⟩
      · exact e1
      · rw [e] at e1 e2
        rw [e2, hv1 e1]
  rcases h.ins with e | ⟨A, x, B, e0, e1⟩
  · refine ⟨T0 ++ T1, [], by simp, safe_const (bid := bid) ?_ (same e) hv0 (fun hx => ⟨hv1 hx, hr⟩), ?_⟩
    · intro σ hσ
      rcases List.mem_append.1 hσ with hσ | hσ
      · exact h.lk0 σ hσ
      · rw [← e]; exact h.lk1 σ hσ
    · rw [e]
      exact safe_const (bid := bid) (by simp) (by simp) hv0 (fun hx => ⟨hv1 hx, hr⟩)
  · cases A with
    | nil =>
      simp only [List.nil_append] at e0 e1
      obtain ⟨T1a, T1b, e, h2, h3⟩ := split_once (w := hdW r D1) h.ord
        (fun σ hσ => (h.mem1 σ hσ).imp id (fun h => h.2))
      refine ⟨T0 ++ T1a, T1b, by rw [e]; simp, safe_const (bid := bid) ?_ ?_ hv0 (fun hx => ⟨hv1 hx, hr⟩), ?_⟩
      · intro σ hσ
        rcases List.mem_append.1 hσ with hσ | hσ
        · exact h.lk0 σ hσ
        · have := h.lk1 σ (by rw [e]; exact List.mem_append_left _ hσ)
          rw [e1] at this
          rw [e0]
          exact Lk.drop [x] this
      · intro σ hσ
        rcases List.mem_append.1 hσ with hσ | hσ
        · exact h.mem0 σ hσ
        · exact h2 σ hσ
      · have := safe_const (P := P) (bid := bid) (r := r) (T := T1b) (D := D1) (a := a)
          (fun σ hσ => h.lk1 σ (by rw [e]; exact List.mem_append_right _ hσ)) h3
          (fun hx => by rw [e1] at hx; cases hx) (fun _ => ⟨rfl, hr⟩)
        rw [e1] at this ⊢
        exact this
    | cons d A =>
      have hne : D0 ≠ [] := by rw [e0]; simp
      have hne1 : D1 ≠ [] := by rw [e1]; simp
      have hh : hdW r D1 = hdW r D0 := by rw [e0, e1]; rfl
      refine ⟨T0, T1, rfl, safe_const h.lk0 h.mem0 hv0 (fun hx => ⟨hv1 hx, hr⟩),
        safe_const h.lk1 ?_ (fun hx => absurd hx hne1) (fun _ => ⟨by rw [hh]; exact hv1 hne, hr⟩)⟩
      intro σ hσ
      rcases h.mem1 σ hσ with e | ⟨-, e⟩
      · exact e
      · rw [e, hh, ← hv1 hne]

theorem wrapCoreT_trace {C : Ctx} (w : World C.env C.U) (hh : C.hon) (hsl : C.sl) {om oa quiet Q}
    {omT : State → Tr State} (hom : OnMain C om oa quiet Q) (heT : ∀ s, erase (omT s) = om s)
    (hqT : ∀ s, quiet s.mainWrapped → omT s = pure s) {s : State} {G : Gh} {A : Abs}
    (h : Inv C s G A) (tbl : List UBinding) (tool : Option Name) (hT : HonT C s tbl)
    (hpot : pot s + 1 < 2 ^ 32) (hq : (∀ u ∈ tbl, u.name ≠ nm "main") ∨ quiet s.mainWrapped)
    {f : Name} {r : Addr} (honce : Once f tbl)
    (hr : (Abs.wrap oa tbl tool A).1.stack f = [] ∨ (Abs.wrap oa tbl tool A).1.real f = some r)
    {tr res} (he : wrapCoreT C.env omT tbl tool s = .ok (tr, res)) {l : Lib} {off : Addr}
    (hl : l ∈ s.linkMap) (hoff : (off, f) ∈ rlOf l) :
    ∃ bid T0 T1, tr = T0 ++ T1 ∧ Phases C.P bid r (l.addr + off) (s.mem (l.addr + off)) (A.stack f)
        ((Abs.wrap oa tbl tool A).1.stack f) (s :: T0) T1 ∧
      (A.stack f = [] ∨ A.real f = some r) ∧
      (f ∉ tbl.map UBinding.name → (Abs.wrap oa tbl tool A).1.stack f = A.stack f) ∧
      ∀ x b, res.1.handles x = some b → bid x = b := by
  generalize htn : tool.getD (nm "[UNSPECIFIED]") = tn at *
  obtain ⟨ts, tid, p, H, hgc, hnp, hadd, hI, hK⟩ := setup_inv h tn tbl (fun _ => hT)
    (fun _ => by unfold pot at hpot; omega)
  set s1 : State := { s with
          tools := ts
          gen := s.gen + 1
          binds := s.binds ++ tbl.map (mkB tid)
          handles := H } with hs1
  set G1 : Gh := { G with
    pend := fun c => G.pend c ∨ c ∈ List.range' s.binds.length tbl.length } with hG1
  have hgen : (s.gen + 1).toNat = s.gen.toNat + 1 := by
    unfold pot at hpot
    rw [BitVec.toNat_add]
    simp
    omega
  have hpot1 : pot s1 = pot s + 1 := by
    have h1 : pot s1 = (s.gen + 1).toNat + if s.mainWrapped then 0 else 2 := rfl
    rw [h1, hgen]; unfold pot; omega
  have hbs : (List.range' s.binds.length tbl.length).map (btu s1.binds) =
      tbl.map (fun u => some (tid, u)) := by
    apply List.ext_getElem?
    intro i
    simp only [List.getElem?_map]
    by_cases hi : i < tbl.length
    · rw [List.getElem?_range' (by simpa using hi), List.getElem?_eq_getElem hi]
      simp only [Option.map_some, Nat.one_mul]
      congr 1
      show btu (s.binds ++ tbl.map (mkB tid)) _ = _
      simp [btu, List.getElem?_append_right, List.getElem?_eq_getElem hi, mkB]
    · rw [List.getElem?_eq_none (by simp; omega), List.getElem?_eq_none (by omega)]
      rfl
  have hnd : (List.range' s.binds.length tbl.length).Nodup := List.nodup_range'
  have hnb0 : NbOk none (fun _ => none) := Or.inl ⟨rfl, fun _ => rfl⟩
  have hent0 : NbEnt s1 G1 p (fun _ => none) := by intro f b e; cases e
  have hA : (Abs.wrap oa tbl tool A).1 = (Abs.pushAll oa tn tbl (A.touch tn)).1 := by
    simp only [Abs.wrap, htn]
  rw [hA] at hr ⊢
  -- the run, cut into pieces
  unfold wrapCoreT at he
  obtain ⟨t1, sN, t2, c1, c2, rfl⟩ := ok_bind he
  have hN := erase_nullHandles tbl s
  rw [c1] at hN
  replace hN := Except.ok.inj hN
  obtain ⟨t3, ⟨ts', tid'⟩, t4, c3, c4, rfl⟩ := ok_bind c2
  replace c3 := ok_lift c3
  obtain ⟨rfl, c3⟩ := c3
  obtain ⟨H0, hfold, -⟩ := fold_handles tbl s
  have hNs : sN = { s with handles := H0 } := by
    have hN' : sN = tbl.foldl (fun s u => s.setHandle u.handle none) s := hN
    rw [hN', hfold]
  rw [htn] at c3
  have c3' : s.tools.getOrCreate tn = .ok (ts', tid') := by
    rw [hNs] at c3; exact c3
  rw [hgc] at c3'
  cases c3'
  dsimp only at c4
  obtain ⟨t5, sA, t6, c5, c6, rfl⟩ := ok_bind c4
  have hsA : sA = s1 := by
    have hE := erase_addBindings tid tbl { sN with tools := ts, gen := sN.gen + 1 }
    rw [c5] at hE
    replace hE := Except.ok.inj hE
    have hE' : sA = addBindings tid tbl { sN with tools := ts, gen := sN.gen + 1 } := hE
    rw [hE', hNs]
    rw [hfold] at hadd
    exact hadd
  subst hsA
  obtain ⟨t7, ⟨s2, nb2, nf2⟩, t8, c7, c8, rfl⟩ := ok_bind c6
  have hblen : sN.binds.length = s.binds.length := by rw [hNs]
  rw [show ({ sN with tools := ts, gen := sN.gen + 1 } : State).binds.length = s.binds.length from
    hblen] at c7
  obtain ⟨n, hn, hn1, hn2⟩ : ∃ n, 0 < n ∧ processBindings C.env om tbl.length
        (List.range' s.binds.length tbl.length) s1 none 0 = processBindings C.env om n
        (List.range' s.binds.length tbl.length) s1 none 0 ∧ processBindingsT C.env omT tbl.length
        (List.range' s.binds.length tbl.length) s1 none 0 = processBindingsT C.env omT n
        (List.range' s.binds.length tbl.length) s1 none 0 := by
    cases tbl with
    | nil => exact ⟨1, by omega, rfl, rfl⟩
    | cons u us => exact ⟨_, by simp, rfl, rfl⟩
  rw [hn2] at c7
  obtain ⟨s2', G2, nb2', m2, nf2', f1, f2, f3, f4, f5, f6, f7, f8, f9, f10, -⟩ :=
    processBindings_spec w hom (n := n) hn (t := tid)
      (tool := tn) (p := p) (D := G.dirty) (nb := none) (nf := 0) (m := fun _ => none) tbl hI hnd hbs
      (fun b hb => Or.inr hb) hnp hnb0 hent0 (by funext f; simp [hG1])
      (fun hs => by rw [hpot1]; exact hpot)
  have hres : (s2', nb2', nf2') = (s2, nb2, nf2) := by
    have hE := erase_processBindings C.env heT n
      (List.range' s.binds.length tbl.length) s1 none 0
    rw [f1, c7] at hE
    exact (Except.ok.inj hE).symm
  cases hres
  set bid : HAddr → BId := fun x => (H x).getD 0 with hbid
  have hbid1 : ∀ {x b}, s1.handles x = some b → bid x = b := fun hx => bid_getD H hx
  obtain ⟨T0, T1, rfl, i1, i2, i3, i4, i5, i6, i7, i8⟩ : ∃ T0 T1, t7 = T0 ++ T1 ∧
      (∀ σ ∈ t7, σ.mem = s1.mem ∧ σ.handles = s1.handles) ∧
      (∀ σ ∈ T0, Lk C.P bid r σ (A.stack f)) ∧
      (∀ σ ∈ T1, Lk C.P bid r σ ((Abs.pushAll oa tn tbl (A.touch tn)).1.stack f)) ∧
      Ins (A.stack f) ((Abs.pushAll oa tn tbl (A.touch tn)).1.stack f) ∧
      (A.stack f = [] ∨ A.real f = some r) ∧
      (f ∉ tbl.map UBinding.name → (Abs.pushAll oa tn tbl (A.touch tn)).1.stack f = A.stack f) ∧
      s2.mem = s1.mem ∧ s2.handles = s1.handles := by
    exact processBindingsT_trace w hh hom heT hqT hn (D := G.dirty) _ hI hnd hbs
        (fun b hb => Or.inr hb) hnp hnb0 hent0 (by funext f; simp [hG1])
        (fun hs => by rw [hpot1]; exact hpot) hq hbid1 honce hr c7
  -- the slot
  have hpass1 : ∀ {σ τ : State}, σ.binds = s2.binds → Passing m2 s2.linkMap σ τ →
      τ.mem (l.addr + off) = σ.mem (l.addr + off) ∨
      ((Abs.pushAll oa tn tbl (A.touch tn)).1.stack f ≠ [] ∧ τ.mem (l.addr + off) =
        hdW r ((Abs.pushAll oa tn tbl (A.touch tn)).1.stack f)) := by
    intro σ τ hb0 hσ
    rcases hσ.mem (l.addr + off) with e | ⟨k, hk, q, hq', e1, b, e2, e3⟩
    · left; exact e
    · right
      rw [hb0] at e3
      have hlm : s2.linkMap = s.linkMap := f3.linkMap
      have hf : f = q.2 := (h.slots hsl).cons l hl k (by rw [← hlm]; exact hk) (off, f) hoff q hq' e1
      rw [← hf] at e2
      have hhead := (f10 hq).2 (by intro f b e; cases e) f b e2
      rw [f2.stack hh]
      cases hc : G2.ch f with
      | nil => rw [hc] at hhead; cases hhead
      | cons c cs =>
        rw [hc] at hhead
        cases hhead
        refine ⟨by simp, ?_⟩
        unfold bwr at e3
        cases hb : btu s2.binds b with
        | none => rw [hb] at e3; cases e3
        | some y =>
          obtain ⟨t', u'⟩ := y
          rw [hb] at e3
          simp only [Option.map_some, Option.some.injEq] at e3
          simp [hdW, frameOf, hb, e3]
  have hslot : ∀ {σ : State}, Passing m2 s2.linkMap s2 σ →
      σ.mem (l.addr + off) = s.mem (l.addr + off) ∨
      ((Abs.pushAll oa tn tbl (A.touch tn)).1.stack f ≠ [] ∧ σ.mem (l.addr + off) =
        hdW r ((Abs.pushAll oa tn tbl (A.touch tn)).1.stack f)) := by
    intro σ hσ
    rcases hpass1 rfl hσ with e | e
    · left; rw [e, i7]
    · exact Or.inr e
  have hbid2 : ∀ {x b}, s2.handles x = some b → bid x = b := fun hx => hbid1 (by rw [← i8]; exact hx)
  have hlk2 : Lk C.P bid r s2 ((Abs.pushAll oa tn tbl (A.touch tn)).1.stack f) :=
    lk_of_inv f2 hh hbid2 hr
  -- the pass over the GOTs
  obtain ⟨hpass, hord, hres8⟩ : (∀ σ ∈ t8, Passing m2 s2.linkMap s2 σ) ∧
      t8.Pairwise (Passing m2 s2.linkMap) ∧ res.1.handles = s2.handles := by
    rcases f5 with ⟨rfl, hm0⟩ | ⟨t, rfl, ht⟩
    · dsimp only at c8
      rw [Tr.pure_bind] at c8
      obtain ⟨rfl, rfl⟩ := ok_pure c8
      simp
    · dsimp only at c8
      obtain ⟨t9, s3, t10, c9, c10, rfl⟩ := ok_bind c8
      obtain ⟨rfl, rfl⟩ := ok_pure c10
      have hp := updateLibsT_passTr ht _ (fun l hl => hl) c9
      exact ⟨by simpa using hp.all, by simpa using (List.pairwise_append.1 hp.ord).1, hp.last.handles⟩
  -- setting up
  have hlk1 : Lk C.P bid r s1 (A.stack f) :=
    lk_of_inv (A := A.touch tn) hI hh hbid1 i5
  have hfresh : ∀ {σ : State}, Fresh (tbl.map UBinding.handle) s σ → Lk C.P bid r σ (A.stack f) := by
    intro σ hσ
    have hf1 : Fresh (tbl.map UBinding.handle) s s1 := by
      obtain ⟨-, g2⟩ := nullHandlesT_fresh (hs := tbl.map UBinding.handle) tbl
        (fun u hu => List.mem_map_of_mem hu) c1
      obtain ⟨-, g4⟩ := addBindingsT_fresh (hs := tbl.map UBinding.handle) tbl
        (fun u hu => List.mem_map_of_mem hu) c5
      exact g2.trans ((Fresh.mk rfl (fun _ _ => rfl) (List.prefix_refl _) :
        Fresh _ sN { sN with tools := ts, gen := sN.gen + 1 }).trans g4)
    have hfr : ∀ fr ∈ A.stack f, fr.handle ∉ tbl.map UBinding.handle ∧
        bid fr.handle < s.binds.length := by
      intro fr hfr
      obtain ⟨-, k1, t', u', k2, k3⟩ := frame_bind h hh (bid := fun x => (s.handles x).getD 0)
        (fun hx => bid_getD _ hx) hfr
      have hn := hT.unused _ _ _ k2
      rw [k3] at hn
      refine ⟨hn, ?_⟩
      have : s1.handles fr.handle = s.handles fr.handle := hf1.handles _ hn
      rw [hbid1 (this.trans k1)]
      exact btu_lt k2
    refine hlk1.congr ?_ ?_
    · intro fr hx
      rw [hσ.handles _ (hfr fr hx).1, hf1.handles _ (hfr fr hx).1]
    · intro fr hx
      rw [rd_prefix hσ.binds (hfr fr hx).2, rd_prefix hf1.binds (hfr fr hx).2]
  have hset : ∀ σ ∈ t1 ++ t5, Fresh (tbl.map UBinding.handle) s σ := by
    intro σ hσ
    obtain ⟨g1, g2⟩ := nullHandlesT_fresh (hs := tbl.map UBinding.handle) tbl
      (fun u hu => List.mem_map_of_mem hu) c1
    obtain ⟨g3, -⟩ := addBindingsT_fresh (hs := tbl.map UBinding.handle) tbl
      (fun u hu => List.mem_map_of_mem hu) c5
    rcases List.mem_append.1 hσ with hσ | hσ
    · exact g1 σ hσ
    · exact g2.trans ((Fresh.mk rfl (fun _ _ => rfl) (List.prefix_refl _) :
        Fresh _ sN { sN with tools := ts, gen := sN.gen + 1 }).trans (g3 σ hσ))
  refine ⟨bid, t1 ++ t5 ++ T0, T1 ++ t8, by simp, ⟨i4, ?_, ?_, ?_, ?_, ?_⟩, i5, i6,
    fun x b hx => hbid2 (by rw [← hres8]; exact hx)⟩
  · intro σ hσ
    rcases List.mem_cons.1 hσ with rfl | hσ
    · exact hfresh (Fresh.refl _ _)
    · rcases List.mem_append.1 hσ with hσ | hσ
      · exact hfresh (hset σ hσ)
      · exact i2 σ hσ
  · intro σ hσ
    rcases List.mem_append.1 hσ with hσ | hσ
    · exact i3 σ hσ
    · have := hpass σ hσ
      refine hlk2.congr (fun _ _ => by rw [this.handles]) (fun _ _ => ?_)
      unfold rd; rw [this.binds]
  · intro σ hσ
    rcases List.mem_cons.1 hσ with rfl | hσ
    · rfl
    · rcases List.mem_append.1 hσ with hσ | hσ
      · rw [(hset σ hσ).mem]
      · rw [(i1 σ (List.mem_append_left _ hσ)).1]
  · intro σ hσ
    rcases List.mem_append.1 hσ with hσ | hσ
    · left; rw [(i1 σ (List.mem_append_right _ hσ)).1]
    · exact hslot (hpass σ hσ)
  · refine List.pairwise_append.2 ⟨?_, ?_, ?_⟩
    · refine List.Pairwise.imp_of_mem (R := fun _ _ => True) ?_ (List.pairwise_of_forall (fun _ _ => trivial))
      intro σ τ hσ _ _
      left; rw [(i1 σ (List.mem_append_right _ hσ)).1]
    · refine hord.imp_of_mem ?_
      intro σ τ hσ _ hp
      rcases hslot (hpass σ hσ) with e | ⟨-, e⟩
      · exact Or.inl e
      · right
        rcases hpass1 (hpass σ hσ).binds hp with e' | ⟨-, e'⟩
        · exact e'
        · rw [e, e']
    · intro σ hσ τ _
      left; rw [(i1 σ (List.mem_append_right _ hσ)).1]

end Gotcha
