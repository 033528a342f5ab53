import Verif.Proof.CoreInv
/-
Processing the bindings of a table.
-/
namespace Gotcha
open HTable
open Spec (exportsAt firstDef insertBefore Frame Abs)

/-- The filter accepts the object at its place in the link map. -/
def Accepted (flt : Filter) (linkMap : List Lib) (l : Lib) : Prop :=
  ∃ X Y, linkMap = X ++ l :: Y ∧ flt.accepts l (!Y.isEmpty) = .ok true

/-- What may have happened to memory: words that changed are slots of accepted objects naming a
wrapped function, and now hold one of its wrappers. -/
def MemStep (flt : Filter) (linkMap : List Lib) (mem mem' : Addr → Addr) (binds' : List IBinding)
    (ch' : Name → List BId) : Prop :=
  ∀ a, mem' a = mem a ∨ ∃ l p b, Accepted flt linkMap l ∧ p ∈ rlOf l ∧ a = l.addr + p.1 ∧
    b ∈ ch' p.2 ∧ bwr binds' b = some (mem' a)

/-- Potential of the generation counter. -/
def pot (s : State) : Nat := s.gen.toNat + if s.mainWrapped then 0 else 2

structure Keep (C : Ctx) (s : State) (G : Gh) (s' : State) (G' : Gh) : Prop where
  seen : G'.seen = G.seen
  tu : ∀ {b y}, btu s.binds b = some y → btu s'.binds b = some y
  np : Tools.np s.tools.store <+: Tools.np s'.tools.store
  heads : ∀ {f h}, (G.ch f).head? = some h → ∃ h', (G'.ch f).head? = some h' ∧
    prB s.binds (Tools.np s.tools.store) h ≤ prB s'.binds (Tools.np s'.tools.store) h'
  chs : ∀ {f b}, b ∈ G.ch f → b ∈ G'.ch f
  linkMap : s'.linkMap = s.linkMap
  filter : s'.filter = s.filter
  mainW : s.mainWrapped = true → s'.mainWrapped = true
  vds : s.vdso ≠ none → s'.vdso = s.vdso
  mem : MemStep s.filter s.linkMap s.mem s'.mem s'.binds G'.ch
  wrs : ∀ a, s.wr a = true → s'.wr a = true
  gens : C.sl → s.gen.toNat ≤ s'.gen.toNat

theorem MemStep.refl (flt linkMap mem binds ch) : MemStep flt linkMap mem mem binds ch :=
  fun _ => Or.inl rfl

theorem bwr_mono {binds binds' : List IBinding}
    (h : ∀ {b y}, btu binds b = some y → btu binds' b = some y) {b a} (hb : bwr binds b = some a) :
    bwr binds' b = some a := by
  unfold bwr at *
  cases hx : btu binds b with
  | none => simp [hx] at hb
  | some y => rw [h hx]; simpa [hx] using hb

theorem prB_mono {binds binds' : List IBinding} {np np' : List (Name × Int)}
    (h : ∀ {b y}, btu binds b = some y → btu binds' b = some y) (hn : np <+: np') {b t u}
    (hb : btu binds b = some (t, u)) (ht : t < np.length) : prB binds' np' b = prB binds np b := by
  simp only [prB, hb, h hb]
  obtain ⟨z, rfl⟩ := hn
  rw [List.getElem?_append_left ht]

theorem Keep.refl (C : Ctx) (s : State) (G : Gh) : Keep C s G s G :=
  ⟨rfl, fun h => h, List.prefix_refl _, fun h => ⟨_, h, Int.le_refl _⟩, fun h => h, rfl, rfl,
    fun h => h, fun _ => rfl, fun _ => Or.inl rfl, fun _ h => h, fun _ => Nat.le_refl _⟩

theorem Keep.trans {C : Ctx} {s1 G1 s2 G2 s3 G3} (h1 : Keep C s1 G1 s2 G2)
    (h2 : Keep C s2 G2 s3 G3) : Keep C s1 G1 s3 G3 where
  seen := h2.seen.trans h1.seen
  tu := fun h => h2.tu (h1.tu h)
  np := h1.np.trans h2.np
  heads := fun h => by
    obtain ⟨h', e1, e2⟩ := h1.heads h
    obtain ⟨h'', e3, e4⟩ := h2.heads e1
    exact ⟨h'', e3, Int.le_trans e2 e4⟩
  chs := fun h => h2.chs (h1.chs h)
  linkMap := h2.linkMap.trans h1.linkMap
  filter := h2.filter.trans h1.filter
  mainW := fun h => h2.mainW (h1.mainW h)
  vds := fun h => by
    have e := h1.vds h
    rw [h2.vds (by rw [e]; exact h), e]
  mem := fun a => by
    rcases h2.mem a with e | ⟨l, p, b, e1, e2, e3, e4, e5⟩
    · rcases h1.mem a with e' | ⟨l, p, b, e1, e2, e3, e4, e5⟩
      · exact Or.inl (e.trans e')
      · exact Or.inr ⟨l, p, b, e1, e2, e3, h2.chs e4, by rw [e]; exact bwr_mono h2.tu e5⟩
    · rw [h1.filter, h1.linkMap] at e1
      exact Or.inr ⟨l, p, b, e1, e2, e3, e4, e5⟩
  wrs := fun a h => h2.wrs a (h1.wrs a h)
  gens := fun h => Nat.le_trans (h1.gens h) (h2.gens h)

/-- All bindings are old ones or (only if `Q`) the two that GOTCHA adds when "main" is wrapped. -/
def NewB (Q : Prop) (env : Env) (s s' : State) : Prop :=
  ∀ b t u, btu s'.binds b = some (t, u) → btu s.binds b = some (t, u) ∨
    (Q ∧ (u.handle = env.hLibcMain ∨ u.handle = env.hMain))

theorem NewB.refl (Q env) (s : State) : NewB Q env s s := fun _ _ _ h => Or.inl h

theorem NewB.trans {Q env} {s1 s2 s3 : State} (h1 : NewB Q env s1 s2) (h2 : NewB Q env s2 s3) :
    NewB Q env s1 s3 := by
  intro b t u h
  rcases h2 _ _ _ h with h | h
  · exact h1 _ _ _ h
  · exact Or.inr h

/-- What the block for "main" must do (`om`) and its effect on the abstract state (`oa`); `quiet`
says when it does nothing. -/
structure OnMain (C : Ctx) (om : State → Except Fault State) (oa : Abs → Abs)
    (quiet : Bool → Prop) (Q : Prop) : Prop where
  step : ∀ {s G A}, Inv C s G A → (C.sl → pot s < 2 ^ 32) → ∃ s' G', om s = .ok s' ∧
    Inv C s' G' (oa A) ∧ Keep C s G s' G' ∧ G'.pend = G.pend ∧ G'.dirty = G.dirty ∧
    (C.sl → pot s' ≤ pot s) ∧ (quiet s.mainWrapped → s' = s ∧ G' = G) ∧
    (¬ quiet s.mainWrapped → ∃ h, (G'.ch (nm "main")).head? = some h ∧
      (oa A).prioOf (nm "gotcha") ≤ prB s'.binds (Tools.np s'.tools.store) h) ∧
    NewB Q C.env s s'
  quietA : ∀ {A : Abs}, quiet A.mainWrapped → oa A = A

/-- The inner wraps do nothing for "main". -/
theorem onMain_id (C : Ctx) : OnMain C (fun s => .ok s) id (fun _ => True) False where
  step := fun {s G _} h _ => ⟨s, G, rfl, h, Keep.refl .., rfl, rfl, fun _ => Nat.le_refl _,
    fun _ => ⟨rfl, rfl⟩, fun h => absurd trivial h, NewB.refl _ _ _⟩
  quietA := fun _ => rfl

/-- `new_bindings` as a map. -/
def NbOk (nb : Option (HTable Name BId)) (m : Name → Option BId) : Prop :=
  (nb = none ∧ ∀ f, m f = none) ∨ ∃ t, nb = some t ∧ TabMap strhash t m

/-- One iteration of the loop of `gotcha_wrap`. -/
def processOne (env : Env) (onMain : State → Except Fault State) (n : Nat) (b : BId) (s : State)
    (nb : Option (HTable Name BId)) (nf : Nat) :
    Except Fault (State × Option (HTable Name BId) × Nat) := do
  let xb ← s.bind b
  let (s, r) ← rewriteOrders onMain s b
  let (s, nf) ←
    if r.lookup then do
      let (s, ok) ← s.prepareSymbol env b
      if ok then .ok (s, nf)
      else do
        let t ← s.notFound.addto xb.user.name b (strhash xb.user.name)
        .ok ({ s with notFound := t }, nf + 1)
    else .ok (s, nf)
  let nb ← if r.binding then addNew env n nb xb.user.name b else .ok nb
  .ok (s, nb, nf)

theorem processBindings_cons (env : Env) (onMain : State → Except Fault State) (n : Nat) (b : BId)
    (bs : List BId) (s : State) (nb : Option (HTable Name BId)) (nf : Nat) :
    processBindings env onMain n (b :: bs) s nb nf =
      processOne env onMain n b s nb nf >>= fun r =>
        processBindings env onMain n bs r.1 r.2.1 r.2.2 := by
  rw [processBindings, processOne]
  simp only [bind, Except.bind]
  cases s.bind b with
  | error e => rfl
  | ok xb =>
    dsimp only
    cases rewriteOrders onMain s b with
    | error e => rfl
    | ok y =>
      obtain ⟨s1, r⟩ := y
      dsimp only
      by_cases hl : r.lookup = true
      · simp only [if_pos hl]
        cases s1.prepareSymbol env b with
        | error e => rfl
        | ok y =>
          obtain ⟨s2, ok⟩ := y
          dsimp only
          by_cases hk : ok = true
          · simp only [if_pos hk]
            by_cases hb : r.binding = true
            · simp only [if_pos hb]
              cases addNew env n nb xb.user.name b <;> rfl
            · simp only [if_neg hb]
          · simp only [if_neg hk]
            cases s2.notFound.addto xb.user.name b (strhash xb.user.name) with
            | error e => rfl
            | ok t =>
              dsimp only
              by_cases hb : r.binding = true
              · simp only [if_pos hb]
                cases addNew env n nb xb.user.name b <;> rfl
              · simp only [if_neg hb]
      · simp only [if_neg hl]
        by_cases hb : r.binding = true
        · simp only [if_pos hb]
          cases addNew env n nb xb.user.name b <;> rfl
        · simp only [if_neg hb]

theorem addNew_spec (env : Env) (hp : 48 ≤ env.page) {n : Nat} (hn : 0 < n)
    {nb : Option (HTable Name BId)} {m} (h : NbOk nb m) {name : Name} (b : BId)
    (hm : m name = none) :
    ∃ t, addNew env n nb name b = .ok (some t) ∧ TabMap strhash t (upd m name (some b)) := by
  unfold addNew
  rcases h with ⟨rfl, h⟩ | ⟨t, rfl, ht⟩
  · obtain ⟨t0, hc, h0⟩ := create_tab (K := Name) (D := BId) strhash hp (initial := n * 2)
      (by omega)
    have hm0 : m = fun _ => none := funext h
    obtain ⟨t', he, ht'⟩ := addto_tab h0 name b rfl
    refine ⟨t', ?_, by rw [hm0]; exact ht'⟩
    simp only [hc, bind, Except.bind, he]
  · obtain ⟨t', he, ht'⟩ := addto_tab ht name b hm
    refine ⟨t', ?_, ht'⟩
    simp only [bind, Except.bind, he]

/-- Nothing but the tables and the binding records changed. -/
structure Quiet (s : State) (G : Gh) (s' : State) (G' : Gh) : Prop where
  mem : s'.mem = s.mem
  wr : s'.wr = s.wr
  gen : s'.gen = s.gen
  ext : RecExt s.libs G.lm s'.libs G'.lm
  mainW : s'.mainWrapped = s.mainWrapped

theorem Quiet.refl (s G) : Quiet s G s G := ⟨rfl, rfl, rfl, RecExt.refl _ _, rfl⟩
theorem Quiet.trans {s1 G1 s2 G2 s3 G3} (h1 : Quiet s1 G1 s2 G2) (h2 : Quiet s2 G2 s3 G3) :
    Quiet s1 G1 s3 G3 :=
  ⟨h2.mem.trans h1.mem, h2.wr.trans h1.wr, h2.gen.trans h1.gen, h1.ext.trans h2.ext,
    h2.mainW.trans h1.mainW⟩

/-- Entries of `new_bindings`: bindings of that function, on its chain; the head of the chain has at
least the tool's priority. -/
def NbEnt (s : State) (G : Gh) (p : Int) (m : Name → Option BId) : Prop :=
  ∀ f b, m f = some b → b ∈ G.ch f ∧ ∃ h, (G.ch f).head? = some h ∧
    p ≤ prB s.binds (Tools.np s.tools.store) h

theorem NbEnt.keep {C : Ctx} {s G s' G' p m} (h : NbEnt s G p m) (hk : Keep C s G s' G') :
    NbEnt s' G' p m := by
  intro f b hb
  obtain ⟨h1, hd, h2, h3⟩ := h f b hb
  obtain ⟨hd', h4, h5⟩ := hk.heads h2
  exact ⟨hk.chs h1, hd', h4, Int.le_trans h3 h5⟩

theorem processOne_spec {C : Ctx} (w : World C.env C.U) {om oa quiet Q} (hom : OnMain C om oa quiet Q)
    {n : Nat} (hn : 0 < n) {s : State} {G : Gh} {A : Abs} {b t u p tool nb m} {nf : Nat}
    {D : Name → Prop} (h : Inv C s G A) (hb : G.pend b) (hbu : btu s.binds b = some (t, u))
    (hpp : (Tools.np s.tools.store)[t]? = some (tool, p)) (hnb : NbOk nb m)
    (hent : NbEnt s G p m) (hD : G.dirty = fun f => D f ∨ (m f).isSome = true)
    (hpot : C.sl → pot s < 2 ^ 32) :
    ∃ s' G' nb' m' nf', processOne C.env om n b s nb nf = .ok (s', nb', nf') ∧
      Inv C s' G' ((if u.name = nm "main" then oa A else A).push tool p u).1 ∧
      Keep C s G s' G' ∧ G'.pend = (fun c => G.pend c ∧ c ≠ b) ∧ NbOk nb' m' ∧
      NbEnt s' G' p m' ∧ (G'.dirty = fun f => D f ∨ (m' f).isSome = true) ∧
      (C.sl → pot s' ≤ pot s) ∧
      (C.hon → nf' = nf + if ((if u.name = nm "main" then oa A else A).push tool p u).2
        then 1 else 0) ∧
      ((u.name ≠ nm "main" ∨ quiet s.mainWrapped) → Quiet s G s' G' ∧
        ((∀ f b, m f = some b → (G.ch f).head? = some b) →
          ∀ f b, m' f = some b → (G'.ch f).head? = some b)) ∧
      (u.name ≠ nm "main" → G.ch u.name = [] → s.linkMap ≠ [] → s'.vdso ≠ none) ∧
      (u.name = nm "main" → ¬ quiet s.mainWrapped → p ≤ (oa A).prioOf (nm "gotcha") → m' = m) ∧
      NewB Q C.env s s' ∧ (∃ hd, (G'.ch u.name).head? = some hd ∧
        p ≤ prB s'.binds (Tools.np s'.tools.store) hd) ∧
      (m' = m ∨ m' = upd m u.name (some b)) ∧
      ((u.name ≠ nm "main" ∨ quiet s.mainWrapped) → (∀ f, f ≠ u.name → G'.ch f = G.ch f) ∧
        (G.ch u.name = [] → m' u.name = some b) ∧
        ((G'.ch u.name).head? ≠ (G.ch u.name).head? → m' u.name = some b)) := by
  -- the block for "main"
  obtain ⟨s1, G1, hs1, h1, hk1, hpend1, hdirty1, hpot1, hq1, hq1', hhd1, hnb1⟩ :
      ∃ s1 G1, (if u.name = nm "main" then om s else .ok s) = .ok s1 ∧
        Inv C s1 G1 (if u.name = nm "main" then oa A else A) ∧ Keep C s G s1 G1 ∧
        G1.pend = G.pend ∧ G1.dirty = G.dirty ∧ (C.sl → pot s1 ≤ pot s) ∧
        ((u.name ≠ nm "main" ∨ quiet s.mainWrapped) → s1 = s ∧ G1 = G) ∧
        (u.name ≠ nm "main" → s1 = s ∧ G1 = G) ∧
        (u.name = nm "main" → ¬ quiet s.mainWrapped → ∃ h, (G1.ch (nm "main")).head? = some h ∧
          (oa A).prioOf (nm "gotcha") ≤ prB s1.binds (Tools.np s1.tools.store) h) ∧
        NewB Q C.env s s1 := by
    by_cases e : u.name = nm "main"
    · obtain ⟨s1, G1, e1, e2, e3, e4, e5, e6, e7, e8, e9⟩ := hom.step h hpot
      refine ⟨s1, G1, by rw [if_pos e]; exact e1, by rw [if_pos e]; exact e2, e3, e4, e5, e6, ?_,
        fun hc => absurd e hc, fun _ => e8, e9⟩
      rintro (hc | hc)
      · exact absurd e hc
      · exact e7 hc
    · exact ⟨s, G, by rw [if_neg e], by rw [if_neg e]; exact h, Keep.refl .., rfl, rfl,
        fun _ => Nat.le_refl _, fun _ => ⟨rfl, rfl⟩, fun _ => ⟨rfl, rfl⟩, fun hc => absurd hc e, NewB.refl _ _ _⟩
  generalize hA1 : (if u.name = nm "main" then oa A else A) = A1 at *
  have hbu1 := hk1.tu hbu
  have hpp1 : (Tools.np s1.tools.store)[t]? = some (tool, p) := by
    obtain ⟨z, hz⟩ := hk1.np
    rw [← hz, List.getElem?_append_left (List.getElem?_eq_some_iff.1 hpp).1, hpp]
  have hb1 : G1.pend b := by rw [hpend1]; exact hb
  have hp : prB s.binds (Tools.np s.tools.store) b = p := by simp [prB, hbu, hpp]
  -- put on the chain
  obtain ⟨binds2, ft2, r, ch2, he2, hP⟩ := rwTail_spec (hon := C.hon) (P := C.P) p h1.bind h1.fn
    hbu1 hb1 h1.hon
  have hro : rewriteOrders om s b = .ok ({ s1 with binds := binds2, funTab := ft2 }, r) := by
    rw [rewriteOrders_eq om hbu (h.bind.okt hbu), hs1, hp]
    exact he2
  have htu2 : btu binds2 = btu s1.binds := hP.tu
  have hlen2 : binds2.length = s1.binds.length := hP.len
  obtain ⟨x0, hx0, -, hx0u⟩ := btu_get hbu
  have hnamed1 : ∀ {f c}, c ∈ G1.ch f → ∃ t u, btu s1.binds c = some (t, u) := by
    intro f c hc
    obtain ⟨t, u, e, -⟩ := h1.bind.named hc
    exact ⟨t, u, e⟩
  -- resolution
  obtain ⟨binds3, tl, libs3, lm3, vd3, nft, nf3, real3, nf', hprep, htu3, hnx3, hlen3, hL3, hext3,
      hvd3, hvdk, hvds, hnft, hnfm3, hhon3, hnfr3, hreal3, hnf'⟩ :
      ∃ binds3 tl libs3 lm3 vd3 nft nf3 real3 nf',
        (if r.lookup = true then
          match State.prepareSymbol C.env { s1 with binds := binds2, funTab := ft2 } b with
          | .error e => Except.error e
          | .ok (s, ok) =>
            if ok = true then Except.ok (s, nf)
            else match s.notFound.addto u.name b (strhash u.name) with
              | .error e => .error e
              | .ok t => .ok ({ s with notFound := t }, nf + 1)
         else .ok ({ s1 with binds := binds2, funTab := ft2 }, nf)) =
          .ok ({ s1 with
            binds := binds3
            funTab := ft2
            libTab := tl
            libs := libs3
            vdso := vd3
            notFound := nft }, nf') ∧
        btu binds3 = btu binds2 ∧ bnx binds3 = bnx binds2 ∧ binds3.length = binds2.length ∧
        LibInv C.U G1.seen tl libs3 lm3 ∧ RecExt s1.libs G1.lm libs3 lm3 ∧
        VdOk C.env C.v vd3 s1.linkMap ∧ (s1.vdso ≠ none → vd3 = s1.vdso) ∧
        (G1.ch u.name = [] → s1.linkMap ≠ [] → vd3 ≠ none) ∧
        TabMap strhash nft nf3 ∧ (∀ {f c}, nf3 f = some c → c ∈ ch2 f) ∧
        (C.hon → Hon C.P binds3 s1.handles ch2 (fun c => G1.pend c ∧ c ≠ b) real3) ∧
        (C.hon → ∀ f, (nf3 f).isSome ↔ (ch2 f ≠ [] ∧ real3 f = none)) ∧
        (C.hon → ∀ f, (A1.push tool p u).1.real f = real3 f) ∧
        (C.hon → nf' = nf + if (A1.push tool p u).2 then 1 else 0) := by
    by_cases hlk : G1.ch u.name = []
    · -- first wrapper: resolve the function
      rw [if_pos (hP.look.2 hlk)]
      have hchs : ch2 = upd G1.ch u.name [b] := by
        rcases hP.chs with hc | ⟨-, -, hc, -⟩
        · rw [hc, hlk]; rfl
        · exact absurd hlk hc
      obtain ⟨x2, hx2, hx2t, hx2u⟩ := btu_get (htu2.symm ▸ hbu1 : btu binds2 b = some (t, u))
      have hbu2 : btu binds2 b = some (t, u) := by rw [htu2]; exact hbu1
      obtain ⟨c1, hc1, hc1l⟩ := h1.bind.okh hbu1
      obtain ⟨tl, libs3, lm3, vd3, g1, g2, g3, g4, g5, g6⟩ := prepareLoop_spec w (seen := G1.seen)
        u.name u.handle s1.linkMap h1.objs (v := C.v)
        (s := { s1 with binds := binds2, funTab := ft2 }) h1.lib h1.vd
        ⟨c1, hc1, by show c1 < binds2.length; rw [hlen2]; exact hc1l⟩
      have hprepeq : State.prepareSymbol C.env { s1 with binds := binds2, funTab := ft2 } b =
          prepareLoop C.env u.name u.handle s1.linkMap { s1 with binds := binds2, funTab := ft2 } := by
        simp only [State.prepareSymbol, State.bind, hx2, bind, Except.bind, hx2u]
      rw [hprepeq]
      have hnfnone : G1.nf u.name = none := by
        cases hnn : G1.nf u.name with
        | none => rfl
        | some c => have := h1.nfm hnn; rw [hlk] at this; cases this
      have hAst : C.hon → A1.stack u.name = [] := by
        intro hh; rw [h1.stack hh, hlk]; rfl
      have hres : A1.resolve u.name = firstDef C.v s1.linkMap u.name := by
        simp only [Abs.resolve, h1.vdso, h1.libs]
      rcases g6 with ⟨a, c, hfd, hc, hcl, hpe⟩ | ⟨hfd, hpe⟩
      · simp only [hpe, if_true]
        refine ⟨binds2.modify c (fun x => { x with wrappee := some a }), tl, libs3, lm3, vd3,
          s1.notFound, G1.nf, upd G1.real u.name (some a), nf, rfl, btu_modW, bnx_modW, length_modW,
          g1, g2, g3, g5, ?_, h1.nf, ?_, ?_, ?_, ?_, ?_⟩
        · intro _ hne; rw [g4 hne]; simp
        · intro f c' hcc
          rw [hchs]
          have := h1.nfm hcc
          by_cases e : f = u.name
          · rw [e, hnfnone] at hcc; cases hcc
          · rw [upd_ne _ _ e]; exact this
        · intro hh
          have hH := hP.hon hh (h1.hon hh)
          rw [if_pos hlk] at hH
          have hcb : c = b := by
            have e1 := hH.own hbu2
            have e2 : s1.handles u.handle = some c := hc
            rw [e2] at e1
            simpa using e1
          have hwp : bwp (binds2.modify c (fun x => { x with wrappee := some a })) =
              upd (bwp binds2) b (some (some a)) := by
            rw [bwp_modW hcl, hcb]
          have hwr : bwr (binds2.modify c (fun x => { x with wrappee := some a })) = bwr binds2 := by
            funext y; simp [bwr, btu_modW]
          refine ⟨fun hy => hH.own (by rw [btu_modW] at hy; exact hy),
            fun hy => hH.prog (by rw [btu_modW] at hy; exact hy), ?_, ?_⟩
          · intro f
            rw [hwp, hwr]
            by_cases e : f = u.name
            · rw [e, hchs, upd_self, upd_self]
              exact ⟨by simp [nextVal], trivial⟩
            · rw [upd_ne _ _ e]
              have hwf := hH.wch f
              rw [upd_ne _ _ e] at hwf
              refine WChain.congr (fun _ _ => rfl) ?_ hwf
              intro y hy
              rw [hchs, upd_ne _ _ e] at hy
              rw [upd_ne _ _ (fun e' => h1.bind.pendc hb1 (f := f) (by rw [← e']; exact hy))]
          · intro y hy
            rw [hwp, upd_ne _ _ hy.2]; exact hH.pend hy
        · intro hh f
          rw [h1.nfr hh f, hchs]
          by_cases e : f = u.name
          · subst e; simp [hlk]
          · rw [upd_ne _ _ e, upd_ne _ _ e]
        · intro hh f
          unfold Abs.push
          rw [hAst hh]
          simp only [hres, hfd]
          by_cases e : f = u.name
          · rw [e]; simp
          · rw [upd_ne _ _ e, upd_ne _ _ e]; exact h1.real hh f
        · intro hh
          unfold Abs.push
          rw [hAst hh]
          simp [hres, hfd]
      · simp only [hpe, Bool.false_eq_true, if_false]
        obtain ⟨nft, hne, hnft⟩ := addto_tab h1.nf u.name b hnfnone
        simp only [hne]
        refine ⟨binds2, tl, libs3, lm3, vd3, nft, upd G1.nf u.name (some b),
          upd G1.real u.name none, nf + 1, rfl, rfl, rfl, rfl,
          g1, g2, g3, g5, ?_, hnft, ?_, ?_, ?_, ?_, ?_⟩
        · intro _ hne; rw [g4 hne]; simp
        · intro f c' hcc
          rw [hchs]
          by_cases e : f = u.name
          · rw [e, upd_self] at hcc
            rw [e, upd_self]
            simp at hcc
            simp [hcc]
          · rw [upd_ne _ _ e] at hcc ⊢; exact h1.nfm hcc
        · intro hh
          have hH := hP.hon hh (h1.hon hh)
          rw [if_pos hlk] at hH
          exact hH
        · intro hh f
          rw [hchs]
          by_cases e : f = u.name
          · subst e; simp
          · rw [upd_ne _ _ e, upd_ne _ _ e, upd_ne _ _ e]; exact h1.nfr hh f
        · intro hh f
          unfold Abs.push
          rw [hAst hh]
          simp only [hres, hfd]
          by_cases e : f = u.name
          · rw [e]; simp
          · rw [upd_ne _ _ e, upd_ne _ _ e]; exact h1.real hh f
        · intro hh
          unfold Abs.push
          rw [hAst hh]
          simp [hres, hfd]
    · -- already wrapped before
      have hnl : ¬ (r.lookup = true) := fun hc => hlk (hP.look.1 hc)
      rw [if_neg hnl]
      have hAst : C.hon → A1.stack u.name ≠ [] := by
        intro hh; rw [h1.stack hh]; simpa using hlk
      have hmem2 : ∀ {f c}, c ∈ G1.ch f → c ∈ ch2 f := by
        intro f c hc
        rcases hP.chs with hcc | ⟨-, hcc, -⟩
        · rw [hcc]
          by_cases e : f = u.name
          · rw [e, upd_self, insertBefore_mem]; rw [e] at hc; exact Or.inl hc
          · rw [upd_ne _ _ e]; exact hc
        · rw [hcc]; exact hc
      refine ⟨binds2, s1.libTab, s1.libs, G1.lm, s1.vdso, s1.notFound, G1.nf, G1.real, nf, rfl, rfl,
        rfl, rfl, h1.lib, RecExt.refl _ _, h1.vd, fun _ => rfl, fun hc => absurd hc hlk, h1.nf,
        fun hc => hmem2 (h1.nfm hc), ?_, ?_, ?_, ?_⟩
      · intro hh
        have hH := hP.hon hh (h1.hon hh)
        rw [if_neg hlk] at hH
        exact hH
      · intro hh f
        rw [h1.nfr hh f]
        rcases hP.chs with hcc | ⟨-, hcc, -⟩
        · rw [hcc]
          by_cases e : f = u.name
          · rw [e, upd_self]
            have : insertBefore (fun c => decide (prB s1.binds (Tools.np s1.tools.store) c < p)) b
                (G1.ch u.name) ≠ [] := by
              intro hc
              have := (insertBefore_mem (fun c => decide (prB s1.binds (Tools.np s1.tools.store) c
                < p)) b (G1.ch u.name) b).2 (Or.inr rfl)
              rw [hc] at this; cases this
            simp [hlk, this]
          · rw [upd_ne _ _ e]
        · rw [hcc]
      · intro hh f
        unfold Abs.push
        have := hAst hh
        cases hA : A1.stack u.name with
        | nil => exact absurd hA this
        | cons g gs => exact h1.real hh f
      · intro hh
        unfold Abs.push
        have := hAst hh
        cases hA : A1.stack u.name with
        | nil => exact absurd hA this
        | cons g gs => simp
  have hinv3 := inv_after h1 hbu1 ⟨p, hpp1⟩ hP htu3 hnx3 hlen3 hL3 hext3 hvd3 hnft hnfm3 hhon3 hnfr3
    hreal3
  set s3 : State := { s1 with
        binds := binds3
        funTab := ft2
        libTab := tl
        libs := libs3
        vdso := vd3
        notFound := nft } with hs3
  set G3 : Gh := { G1 with
        ch := ch2
        real := real3
        nf := nf3
        lm := lm3
        pend := fun c => G1.pend c ∧ c ≠ b
        dirty := fun f => G1.dirty f ∨ (r.binding = true ∧ f = u.name) } with hG3
  -- heads
  have htu13 : btu s3.binds = btu s1.binds := by rw [hs3]; exact htu3.trans htu2
  have hprB : ∀ c, prB s3.binds (Tools.np s3.tools.store) c =
      prB s1.binds (Tools.np s1.tools.store) c := by
    intro c; simp only [prB, htu13]; rfl
  have hpb : prB s1.binds (Tools.np s1.tools.store) b = p := by simp [prB, hbu1, hpp1]
  have hhead : ∀ {f hd}, (G1.ch f).head? = some hd → ∃ hd', (ch2 f).head? = some hd' ∧
      prB s1.binds (Tools.np s1.tools.store) hd ≤ prB s1.binds (Tools.np s1.tools.store) hd' ∧
      (hd' = hd ∨ (f = u.name ∧ hd' = b ∧ prB s1.binds (Tools.np s1.tools.store) hd < p)) := by
    intro f hd hhd
    rcases hP.chs with hcc | ⟨-, hcc, -⟩
    · by_cases e : f = u.name
      · rw [hcc, e, upd_self, insertBefore_head]
        rw [e] at hhd
        cases hL : G1.ch u.name with
        | nil => rw [hL] at hhd; cases hhd
        | cons y L =>
          rw [hL] at hhd
          simp only [List.head?_cons, Option.some.injEq] at hhd
          subst hhd
          simp only [decide_eq_true_eq]
          split
          · rename_i hlt
            exact ⟨b, rfl, by rw [hpb]; exact Int.le_of_lt hlt, Or.inr ⟨by trivial, rfl, hlt⟩⟩
          · exact ⟨y, rfl, Int.le_refl _, Or.inl rfl⟩
      · rw [hcc, upd_ne _ _ e]
        exact ⟨hd, hhd, Int.le_refl _, Or.inl rfl⟩
    · rw [hcc]; exact ⟨hd, hhd, Int.le_refl _, Or.inl rfl⟩
  have hmem2 : ∀ {f c}, c ∈ G1.ch f → c ∈ ch2 f := by
    intro f c hc
    rcases hP.chs with hcc | ⟨-, hcc, -⟩
    · rw [hcc]
      by_cases e : f = u.name
      · rw [e, upd_self, insertBefore_mem]; rw [e] at hc; exact Or.inl hc
      · rw [upd_ne _ _ e]; exact hc
    · rw [hcc]; exact hc
  have hk3 : Keep C s1 G1 s3 G3 := by
    refine ⟨rfl, fun hy => by rw [htu13]; exact hy, List.prefix_refl _, ?_, hmem2, rfl, rfl,
      fun hy => hy, hvdk, fun _ => Or.inl rfl, fun _ hy => hy, fun _ => Nat.le_refl _⟩
    intro f hd hhd
    obtain ⟨hd', e1, e2, -⟩ := hhead hhd
    exact ⟨hd', e1, by rw [hprB]; exact e2⟩
  have hent1 : NbEnt s1 G1 p m := hent.keep hk1
  have hQ13 : Quiet s1 G1 s3 G3 := ⟨rfl, rfl, rfl, hext3, rfl⟩
  -- the accumulator
  have hmnone : r.binding = true → m u.name = none := by
    intro hbind
    cases hmm : m u.name with
    | none => rfl
    | some c =>
      obtain ⟨-, hd, e1, e2⟩ := hent1 _ _ hmm
      obtain ⟨hd', e3, -, e4⟩ := hhead e1
      have e5 := hP.bind.1 hbind
      rw [e3] at e5
      simp only [Option.some.injEq] at e5
      rcases e4 with e4 | ⟨-, -, e4⟩
      · rw [e5] at e4
        exact absurd (List.mem_of_head? (e4 ▸ e1)) (h1.bind.pendc hb1)
      · omega
  obtain ⟨nb', m', hadd, hnb', hm'⟩ : ∃ nb' m',
      (if r.binding = true then addNew C.env n nb u.name b else .ok nb) = .ok nb' ∧ NbOk nb' m' ∧
      m' = (if r.binding = true then upd m u.name (some b) else m) := by
    by_cases hbind : r.binding = true
    · obtain ⟨t', e1, e2⟩ := addNew_spec C.env w.page48 hn hnb b (hmnone hbind)
      exact ⟨some t', upd m u.name (some b), by rw [if_pos hbind]; exact e1, Or.inr ⟨t', rfl, e2⟩,
        by rw [if_pos hbind]⟩
    · exact ⟨nb, m, by rw [if_neg hbind], hnb, by rw [if_neg hbind]⟩
  refine ⟨s3, G3, nb', m', nf', ?_, hinv3, hk1.trans hk3, ?_, hnb', ?_, ?_, ?_, hnf', ?_, ?_, ?_, ?_, ?_, ?_, ?_⟩
  · unfold processOne
    simp only [State.bind, hx0, bind, Except.bind, hro, hx0u]
    by_cases hl : r.lookup = true
    · rw [if_pos hl] at hprep
      simp only [if_pos hl]
      cases hps : State.prepareSymbol C.env { s1 with binds := binds2, funTab := ft2 } b with
      | error e => rw [hps] at hprep; cases hprep
      | ok y =>
        obtain ⟨sy, ok⟩ := y
        rw [hps] at hprep
        dsimp only at hprep ⊢
        by_cases hk : ok = true
        · rw [if_pos hk] at hprep
          simp only [if_pos hk]
          have hp1 := congrArg Prod.fst (Except.ok.inj hprep)
          have hp2 := congrArg Prod.snd (Except.ok.inj hprep)
          dsimp only at hp1 hp2
          by_cases hbind : r.binding = true
          · rw [if_pos hbind] at hadd
            simp only [if_pos hbind, hadd]; rw [hp1, hp2]
          · rw [if_neg hbind] at hadd
            cases hadd
            simp only [if_neg hbind]; rw [hp1, hp2]
        · rw [if_neg hk] at hprep
          simp only [if_neg hk]
          cases hadt : sy.notFound.addto u.name b (strhash u.name) with
          | error e => rw [hadt] at hprep; cases hprep
          | ok tt =>
            rw [hadt] at hprep
            have hp1 := congrArg Prod.fst (Except.ok.inj hprep)
            have hp2 := congrArg Prod.snd (Except.ok.inj hprep)
            dsimp only at hp1 hp2
            by_cases hbind : r.binding = true
            · rw [if_pos hbind] at hadd
              simp only [if_pos hbind, hadd]; rw [hp1, hp2]
            · rw [if_neg hbind] at hadd
              cases hadd
              simp only [if_neg hbind]; rw [hp1, hp2]
    · rw [if_neg hl] at hprep
      simp only [if_neg hl]
      have hp1 := congrArg Prod.fst (Except.ok.inj hprep)
      have hp2 := congrArg Prod.snd (Except.ok.inj hprep)
      dsimp only at hp1 hp2
      by_cases hbind : r.binding = true
      · rw [if_pos hbind] at hadd
        simp only [if_pos hbind, hadd]; rw [hp1, hp2]
      · rw [if_neg hbind] at hadd
        cases hadd
        simp only [if_neg hbind]; rw [hp1, hp2]
  · show (fun c => G1.pend c ∧ c ≠ b) = _
    rw [hpend1]
  · -- entries
    have hent3 : NbEnt s3 G3 p m := hent1.keep hk3
    intro f c hc
    rw [hm'] at hc
    by_cases hbind : r.binding = true
    · rw [if_pos hbind] at hc
      by_cases e : f = u.name
      · rw [e, upd_self] at hc
        simp only [Option.some.injEq] at hc
        subst hc
        rw [e]
        have hh := hP.bind.1 hbind
        refine ⟨List.mem_of_head? hh, b, hh, ?_⟩
        rw [hprB, hpb]
      · rw [upd_ne _ _ e] at hc; exact hent3 f c hc
    · rw [if_neg hbind] at hc; exact hent3 f c hc
  · show (fun f => G1.dirty f ∨ (r.binding = true ∧ f = u.name)) = _
    rw [hdirty1, hD, hm']
    funext f
    apply propext
    by_cases hbind : r.binding = true
    · rw [if_pos hbind]
      by_cases e : f = u.name
      · subst e; simp [hbind]
      · rw [upd_ne _ _ e]; simp [e]
    · rw [if_neg hbind]; simp [hbind]
  · intro hsl
    have : pot s3 = pot s1 := rfl
    rw [this]; exact hpot1 hsl
  · intro hq
    obtain ⟨rfl, rfl⟩ := hq1 hq
    refine ⟨hQ13, ?_⟩
    intro hyp f c hc
    rw [hm'] at hc
    by_cases hbind : r.binding = true
    · rw [if_pos hbind] at hc
      by_cases e : f = u.name
      · rw [e, upd_self] at hc
        simp only [Option.some.injEq] at hc
        subst hc
        rw [e]; exact hP.bind.1 hbind
      · rw [upd_ne _ _ e] at hc
        obtain ⟨hd', e1, -, e2⟩ := hhead (hyp f c hc)
        rcases e2 with e2 | ⟨e2, -⟩
        · rw [← e2]; exact e1
        · exact absurd e2 e
    · rw [if_neg hbind] at hc
      obtain ⟨hd', e1, -, e2⟩ := hhead (hyp f c hc)
      rcases e2 with e2 | ⟨e2, e3, -⟩
      · rw [← e2]; exact e1
      · exfalso
        apply hbind
        apply hP.bind.2
        rw [← e2, ← e3]; exact e1
  · intro hne hnil hlm
    obtain ⟨rfl, rfl⟩ := hq1' hne
    exact hvds hnil hlm
  · intro hmain hnq hle
    rw [hm']
    obtain ⟨hd, e1, e2⟩ := hhd1 hmain hnq
    rw [if_neg]
    intro hbind
    rw [← hmain] at e1
    obtain ⟨hd', e3, -, e4⟩ := hhead e1
    have e5 := hP.bind.1 hbind
    rw [e3] at e5
    simp only [Option.some.injEq] at e5
    rcases e4 with e4 | ⟨-, -, e4⟩
    · rw [e5] at e4
      exact absurd (List.mem_of_head? (e4 ▸ e1)) (h1.bind.pendc hb1)
    · omega
  · refine hnb1.trans ?_
    intro c t' u' hc
    rw [htu13] at hc
    exact Or.inl hc
  · show ∃ hd, (ch2 u.name).head? = some hd ∧ _
    rcases hP.chs with hcc | ⟨-, hcc, hne, -, hcp⟩
    · rw [hcc, upd_self, insertBefore_head]
      cases hL : G1.ch u.name with
      | nil => exact ⟨b, rfl, by rw [hprB, hpb]⟩
      | cons y L =>
        simp only [decide_eq_true_eq]
        split
        · exact ⟨b, rfl, by rw [hprB, hpb]⟩
        · exact ⟨y, rfl, by rw [hprB]; omega⟩
    · rw [hcc]
      cases hL : G1.ch u.name with
      | nil => exact absurd hL hne
      | cons y L =>
        refine ⟨y, rfl, ?_⟩
        rw [hprB]
        exact hcp y (by rw [hL]; rfl)
  · rw [hm']
    split
    · exact Or.inr rfl
    · exact Or.inl rfl
  · intro hq
    obtain ⟨rfl, rfl⟩ := hq1 hq
    refine ⟨?_, ?_, ?_⟩
    · intro f hf
      show ch2 f = _
      rcases hP.chs with hcc | ⟨-, hcc, -⟩
      · rw [hcc, upd_ne _ _ hf]
      · rw [hcc]
    · intro hnil
      have hbind : r.binding = true := by
        apply hP.bind.2
        rcases hP.chs with hcc | ⟨-, -, hne, -⟩
        · rw [hcc, upd_self, hnil]; rfl
        · exact absurd hnil hne
      rw [hm', if_pos hbind, upd_self]
    · intro hch
      have hbind : r.binding = true := by
        apply hP.bind.2
        show (ch2 u.name).head? = some b
        change (ch2 u.name).head? ≠ _ at hch
        rcases hP.chs with hcc | ⟨-, hcc, -⟩
        · rw [hcc, upd_self, insertBefore_head] at hch ⊢
          cases hL : G1.ch u.name with
          | nil => rfl
          | cons y L =>
            rw [hL] at hch
            simp only [decide_eq_true_eq] at hch ⊢
            split
            · rfl
            · rename_i hlt
              rw [if_neg hlt] at hch
              exact absurd rfl hch
        · rw [hcc] at hch
          exact absurd rfl hch
      rw [hm', if_pos hbind, upd_self]

theorem processBindings_spec {C : Ctx} (w : World C.env C.U) {om oa quiet Q}
    (hom : OnMain C om oa quiet Q) {n : Nat} (hn : 0 < n) {t tool p} {D : Name → Prop}
    (us : List UBinding) :
    ∀ {s : State} {G : Gh} {A : Abs} {bs : List BId} {nb m} {nf : Nat}, Inv C s G A → bs.Nodup →
      bs.map (btu s.binds) = us.map (fun u => some (t, u)) → (∀ b ∈ bs, G.pend b) →
      (Tools.np s.tools.store)[t]? = some (tool, p) → NbOk nb m → NbEnt s G p m →
      (G.dirty = fun f => D f ∨ (m f).isSome = true) → (C.sl → pot s < 2 ^ 32) →
    ∃ s' G' nb' m' nf', processBindings C.env om n bs s nb nf = .ok (s', nb', nf') ∧
      Inv C s' G' (Abs.pushAll oa tool us A).1 ∧
      Keep C s G s' G' ∧ G'.pend = (fun c => G.pend c ∧ c ∉ bs) ∧ NbOk nb' m' ∧
      NbEnt s' G' p m' ∧ (G'.dirty = fun f => D f ∨ (m' f).isSome = true) ∧
      (C.sl → pot s' ≤ pot s) ∧
      (C.hon → nf' = nf + (Abs.pushAll oa tool us A).2) ∧
      (((∀ u ∈ us, u.name ≠ nm "main") ∨ quiet s.mainWrapped) → Quiet s G s' G' ∧
        ((∀ f b, m f = some b → (G.ch f).head? = some b) →
          ∀ f b, m' f = some b → (G'.ch f).head? = some b)) ∧
      (∀ u us', us = u :: us' → u.name ≠ nm "main" → G.ch u.name = [] → s.linkMap ≠ [] →
        s'.vdso ≠ none) ∧
      (∀ u, us = [u] → u.name = nm "main" → ¬ quiet s.mainWrapped →
        p ≤ (oa A).prioOf (nm "gotcha") → m' = m) ∧
      NewB Q C.env s s' ∧ (∀ u ∈ us, ∃ hd, (G'.ch u.name).head? = some hd ∧
        p ≤ prB s'.binds (Tools.np s'.tools.store) hd) ∧ (us = [] → m' = m) ∧
      (∀ f, (m f).isSome → (m' f).isSome) ∧
      (∀ f, (m' f).isSome → (m f).isSome ∨ f ∈ us.map UBinding.name) ∧
      (((∀ u ∈ us, u.name ≠ nm "main") ∨ quiet s.mainWrapped) →
        (∀ f ∈ us.map UBinding.name, G.ch f = [] → (m' f).isSome) ∧
          (∀ f, f ∉ us.map UBinding.name → G'.ch f = G.ch f) ∧
          ∀ f, (G'.ch f).head? ≠ (G.ch f).head? → (m' f).isSome) := by
  induction us with
  | nil =>
    intro s G A bs nb m nf h hnd hbs hpend hpp hnb hent hD hpot
    have : bs = [] := by simpa using hbs
    subst this
    refine ⟨s, G, nb, m, nf, rfl, h, Keep.refl .., by simp, hnb, hent, hD, fun _ => Nat.le_refl _,
      fun _ => rfl, fun _ => ⟨Quiet.refl .., fun hx => hx⟩, ?_, ?_, NewB.refl _ _ _, by simp, fun _ => rfl,
      fun _ hx => hx, fun _ hx => Or.inl hx,
      fun _ => ⟨fun f hf => by simp at hf, fun _ _ => rfl, fun _ hx => absurd rfl hx⟩⟩
    · intro _ _ e; cases e
    · intro _ e; cases e
  | cons u us ih =>
    intro s G A bs nb m nf h hnd hbs hpend hpp hnb hent hD hpot
    cases bs with
    | nil => simp at hbs
    | cons b bs =>
    simp only [List.map_cons, List.cons.injEq] at hbs
    rw [List.nodup_cons] at hnd
    obtain ⟨s1, G1, nb1, m1, nf1, e1, e2, e3, e4, e5, e6, e7, e8, e9, e10, e11, e12, e13, e14, e15, e16⟩ :=
      processOne_spec w hom hn (nf := nf) h (hpend b (by simp)) hbs.1 hpp hnb hent hD hpot
    have hpp1 : (Tools.np s1.tools.store)[t]? = some (tool, p) := by
      obtain ⟨z, hz⟩ := e3.np
      rw [← hz, List.getElem?_append_left (List.getElem?_eq_some_iff.1 hpp).1, hpp]
    have hbs1 : bs.map (btu s1.binds) = us.map (fun u => some (t, u)) := by
      rw [← hbs.2]
      refine List.map_congr_left ?_
      intro c hc
      have hcl := h.bind.pendb (hpend c (List.mem_cons_of_mem _ hc))
      obtain ⟨t', u', hcu⟩ := btu_of_lt hcl
      rw [hcu, e3.tu hcu]
    have hpend1 : ∀ c ∈ bs, G1.pend c := by
      intro c hc
      rw [e4]
      exact ⟨hpend c (List.mem_cons_of_mem _ hc), fun e => hnd.1 (by rw [← e]; exact hc)⟩
    obtain ⟨s2, G2, nb2, m2, nf2, f1, f2, f3, f4, f5, f6, f7, f8, f9, f10, f11, f12, f13, f14, f15, f16, f17, f18⟩ :=
      ih (nf := nf1) e2 hnd.2 hbs1 hpend1 hpp1 e5 e6 e7 (fun hs => Nat.lt_of_le_of_lt (e8 hs) (hpot hs))
    have hpr : A.prioOf tool = p := prioOf_eq h hpp
    have hpa : Abs.pushAll oa tool (u :: us) A =
        ((Abs.pushAll oa tool us ((if u.name = nm "main" then oa A else A).push tool p u).1).1,
         (Abs.pushAll oa tool us ((if u.name = nm "main" then oa A else A).push tool p u).1).2 +
          if ((if u.name = nm "main" then oa A else A).push tool p u).2 = true then 1 else 0) := by
      rw [Abs.pushAll, hpr]
    refine ⟨s2, G2, nb2, m2, nf2, ?_, ?_, e3.trans f3, ?_, f5, f6, f7,
      fun hs => Nat.le_trans (f8 hs) (e8 hs), ?_, ?_, ?_, ?_, e13.trans f13, ?_, (fun e => nomatch e),
      ?_, ?_, ?_⟩
    · rw [processBindings_cons, e1]; exact f1
    · rw [hpa]; exact f2
    · rw [f4, e4]
      funext c
      apply propext
      simp only [List.mem_cons, not_or, and_assoc]
    · intro hh
      rw [f9 hh, e9 hh, hpa]
      dsimp only
      omega
    · intro hq
      obtain ⟨q1, q2⟩ := e10 (hq.imp (fun hx => hx u (by simp)) id)
      obtain ⟨q3, q4⟩ := f10 (hq.imp (fun hx v hv => hx v (List.mem_cons_of_mem _ hv))
        (fun hx => by rw [q1.mainW]; exact hx))
      exact ⟨q1.trans q3, fun hx => q4 (q2 hx)⟩
    · intro u' us' e hne hnil hlm
      cases e
      have := e11 hne hnil hlm
      rw [f3.vds this]; exact this
    · intro u' e hmn hnq hle
      cases e
      rw [f15 rfl, e12 hmn hnq hle]
    · intro u' hu'
      rcases List.mem_cons.1 hu' with rfl | hu'
      · obtain ⟨hd, g1, g2⟩ := e14
        obtain ⟨hd', g3, g4⟩ := f3.heads g1
        exact ⟨hd', g3, Int.le_trans g2 g4⟩
      · exact f14 u' hu'
    · intro f hf
      refine f16 f ?_
      rcases e15 with e | e
      · rw [e]; exact hf
      · rw [e]
        by_cases hx : f = u.name
        · rw [hx, upd_self]; rfl
        · rw [upd_ne _ _ hx]; exact hf
    · intro f hf
      rw [List.map_cons, List.mem_cons]
      rcases f17 f hf with h1 | h1
      · rcases e15 with e | e
        · rw [e] at h1; exact Or.inl h1
        · rw [e] at h1
          by_cases hx : f = u.name
          · exact Or.inr (Or.inl hx)
          · rw [upd_ne _ _ hx] at h1; exact Or.inl h1
      · exact Or.inr (Or.inr h1)
    · intro hq
      obtain ⟨q1, -⟩ := e10 (hq.imp (fun hx => hx u (by simp)) id)
      obtain ⟨q2, q3, q6⟩ := e16 (hq.imp (fun hx => hx u (by simp)) id)
      obtain ⟨q4, q5, q7⟩ := f18 (hq.imp (fun hx v hv => hx v (List.mem_cons_of_mem _ hv))
        (fun hx => by rw [q1.mainW]; exact hx))
      refine ⟨fun f hf hnil => ?_, fun f hf => ?_, fun f hf => ?_⟩
      · by_cases hx : f = u.name
        · refine f16 f ?_
          rw [hx] at hnil ⊢
          rw [q3 hnil]; rfl
        · rw [List.map_cons, List.mem_cons] at hf
          refine q4 f (hf.resolve_left hx) ?_
          rw [q2 f hx]; exact hnil
      · rw [List.map_cons, List.mem_cons, not_or] at hf
        rw [q5 f hf.2, q2 f hf.1]
      · by_cases hy : (G2.ch f).head? = (G1.ch f).head?
        · rw [hy] at hf
          by_cases hx : f = u.name
          · refine f16 f ?_
            rw [hx] at hf ⊢
            rw [q6 hf]; rfl
          · rw [q2 f hx] at hf
            exact absurd rfl hf
        · exact q7 f hy

end Gotcha
