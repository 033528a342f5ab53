import Verif.Proof.Protect
import Verif.Model.Init
/-
A function that is not in the function table stays out of it while nobody binds it.
-/
namespace Gotcha
open HTable
namespace Forget
open Prot

/-- `f` is not in the function table, and the bindings begin with `U`. -/
structure Fg (f : Name) (U : List UBinding) (s : State) : Prop where
  tab : ∃ m, TabMap strhash s.funTab m ∧ m f = none
  pre : U <+: users s

/-- The binding is one of `U` and not for `f`. -/
def Oth (f : Name) (U : List UBinding) (b : BId) : Prop := ∃ u, U[b]? = some u ∧ u.name ≠ f

variable {f : Name} {U : List UBinding} {env : Env}

theorem Fg.of {s t : State} (h : Fg f U s) (h1 : t.funTab = s.funTab) (h2 : users t = users s) :
    Fg f U t := ⟨by rw [h1]; exact h.tab, by rw [h2]; exact h.pre⟩

theorem Fg.lower {V : List UBinding} {s : State} (h : Fg f V s) (hp : U <+: V) : Fg f U s :=
  ⟨h.tab, hp.trans h.pre⟩

theorem get_prefix {α : Type} {A B : List α} (h : A <+: B) {i : Nat} {x : α} (hi : A[i]? = some x) :
    B[i]? = some x := by
  obtain ⟨C, rfl⟩ := h
  have hl : i < A.length := (List.getElem?_eq_some_iff.1 hi).1
  rw [List.getElem?_append_left hl, hi]

theorem Oth.raise {V : List UBinding} {b} (h : Oth f U b) (hp : U <+: V) : Oth f V b := by
  obtain ⟨u, h1, h2⟩ := h
  exact ⟨u, get_prefix hp h1, h2⟩

theorem bind_oth {s : State} (h : Fg f U s) {b} (hb : Oth f U b) :
    Ret (fun x => x.user.name ≠ f) (s.bind b) := by
  obtain ⟨u, h1, h2⟩ := hb
  intro x e
  have h3 := get_prefix h.pre h1
  unfold State.bind at e
  unfold users at h3
  rw [List.getElem?_map] at h3
  cases hx : s.binds[b]? with
  | none => rw [hx] at e; cases e
  | some y =>
    rw [hx] at e h3
    cases e
    simp only [Option.map_some, Option.some.injEq] at h3
    rw [h3]; exact h2

theorem setInternal_tab {s s' : State} {h v} (e : s.setInternal h v = .ok s') :
    s'.funTab = s.funTab := by
  unfold State.setInternal at e
  split at e
  · cases e
  · split at e
    · cases e; rfl
    · cases e

theorem setInternal_fg {s : State} (h : Fg f U s) (hd v) : Ret (Fg f U) (s.setInternal hd v) :=
  fun _ e => h.of (setInternal_tab e) (setInternal_users e)

theorem ensureLib_fg {s : State} (h : Fg f U s) (l) : Ret (fun x => Fg f U x.1) (s.ensureLib l) := by
  refine Ret.any (fun o => ?_)
  cases o with
  | some r => exact Ret.ok h
  | none => exact Ret.any (fun t => Ret.ok (h.of rfl rfl))

theorem lookupExported_fg {s : State} (h : Fg f U s) (n l) :
    Ret (fun x => Fg f U x.1) (s.lookupExported env n l) := by
  have hv : Fg f U (s.isVdso env l).1 := by
    unfold State.isVdso
    split <;> exact h.of rfl rfl
  unfold State.lookupExported
  cases hx : s.isVdso env l with
  | mk s1 b =>
    rw [hx] at hv
    cases b with
    | true => exact Ret.ok hv
    | false =>
      simp only
      split
      · exact Ret.err
      · exact Ret.ok hv

theorem prepareLoop_fg {n hd} (ls : List Lib) : ∀ {s : State}, Fg f U s →
    Ret (fun x => Fg f U x.1) (prepareLoop env n hd ls s) := by
  induction ls with
  | nil => intro s h; exact Ret.ok h
  | cons l ls ih =>
    intro s h
    refine Ret.bind (ensureLib_fg h l) ?_
    rintro ⟨s1, r⟩ h1
    refine Ret.bind (lookupExported_fg h1 n l) ?_
    rintro ⟨s2, o⟩ h2
    cases o with
    | some x => exact Ret.bind (setInternal_fg h2 _ _) (fun s3 h3 => Ret.ok h3)
    | none => exact ih h2

theorem prepareSymbol_fg {s : State} (h : Fg f U s) (b) :
    Ret (fun x => Fg f U x.1) (s.prepareSymbol env b) :=
  Ret.any (fun _ => prepareLoop_fg _ h)

/-- Entering another name. -/
theorem addto_fg {t t' : HTable Name BId} {n b} (hn : n ≠ f)
    (ht : ∃ m, TabMap strhash t m ∧ m f = none ∧ m n = none) (e : t.addto n b (strhash n) = .ok t') :
    ∃ m, TabMap strhash t' m ∧ m f = none := by
  obtain ⟨m, h1, h2, h3⟩ := ht
  obtain ⟨t2, e2, h4⟩ := addto_tab h1 n b h3
  rw [e2] at e
  cases e
  exact ⟨_, h4, by rw [upd_ne _ _ hn.symm]; exact h2⟩

theorem insertAtHead_fg {s : State} (h : Fg f U s) {b} (hb : Oth f U b) (hd) :
    Ret (Fg f U) (s.insertAtHead b hd) := by
  intro s' e
  refine ⟨?_, by rw [insertAtHead_users e]; exact h.pre⟩
  obtain ⟨xb, hx, e⟩ := ebind e
  have hn := bind_oth h hb _ hx
  obtain ⟨xh, -, e⟩ := ebind e
  obtain ⟨s2, h2, e⟩ := ebind e
  have ht := setInternal_tab h2
  obtain ⟨⟨t, ok⟩, h3, e⟩ := ebind e
  obtain ⟨t', h4, e⟩ := ebind e
  cases e
  obtain ⟨m, hm, hf⟩ := h.tab
  rw [ht] at h3
  obtain ⟨t2, e2, h5⟩ := removefrom_tab hm (k := xb.user.name) (eq := fun k => k = xb.user.name) name_eq
  rw [show ({ s with binds := s.binds.modify b (fun x => { x with next := some hd }) } : State).funTab =
    s.funTab from rfl, e2] at h3
  cases h3
  exact addto_fg hn ⟨_, h5, by rw [upd_ne _ _ (Ne.symm hn)]; exact hf, by rw [upd_self]⟩ h4

theorem insertAfter_fg {s : State} (h : Fg f U s) (b pos) : Ret (Fg f U) (s.insertAfter b pos) := by
  intro s' e
  refine h.of ?_ (insertAfter_users e)
  obtain ⟨xb, -, e⟩ := ebind e
  obtain ⟨xp, -, e⟩ := ebind e
  obtain ⟨s2, h2, e⟩ := ebind e
  obtain ⟨s3, h3, e⟩ := ebind e
  obtain ⟨xq, -, e⟩ := ebind e
  cases e
  exact (setInternal_tab h3).trans (setInternal_tab h2)

/-- The block for "main". -/
def OmFg (f : Name) (om : State → Except Fault State) : Prop :=
  ∀ {U : List UBinding} {s : State}, Fg f U s → Ret (Fg f U) (om s)

theorem rewriteOrders_fg {om} (ho : OmFg f om) {s : State} (h : Fg f U s) {b} (hb : Oth f U b) :
    Ret (fun x => Fg f U x.1) (rewriteOrders om s b) := by
  refine Ret.bind (bind_oth h hb) (fun xb hxb => Ret.any (fun p => ?_))
  have key : ∀ (s1 : State), Fg f U s1 → Ret (fun x => Fg f U x.1) (do
      match ← nameLookup s1.funTab xb.user.name with
      | none =>
        let t ← s1.funTab.addto xb.user.name b (strhash xb.user.name)
        Except.ok ({ s1 with funTab := t }, (⟨true, true⟩ : RWO))
      | some head =>
        let hp ← s1.bindPriority head
        if hp < p then
          let s ← s1.insertAtHead b head
          .ok (s, ⟨false, true⟩)
        else
          match ← findPos s1 p xb.user.wrapper (s1.binds.length + 1) head with
          | none => .ok (s1, ⟨false, false⟩)
          | some pos =>
            let s ← s1.insertAfter b pos
            .ok (s, ⟨false, false⟩)) := by
    intro s1 h1
    obtain ⟨m, hm, hf⟩ := h1.tab
    refine Ret.bind (Q := fun o => o = m xb.user.name) (by rw [nameLookup_tab hm]; exact Ret.ok rfl)
      (fun o ho => ?_)
    cases o with
    | none =>
      intro r e
      obtain ⟨t, ht, e⟩ := ebind e
      cases e
      exact ⟨addto_fg hxb ⟨m, hm, hf, ho.symm⟩ ht, h1.pre⟩
    | some head =>
      refine Ret.any (fun hp => Ret.ite ?_ ?_)
      · exact Ret.bind (insertAtHead_fg h1 hb _) (fun s2 h2 => Ret.ok h2)
      · refine Ret.any (fun o => ?_)
        cases o with
        | none => exact Ret.ok h1
        | some pos => exact Ret.bind (insertAfter_fg h1 _ _) (fun s2 h2 => Ret.ok h2)
  exact Ret.ite (Ret.bind (ho h) key) (key s h)

theorem processBindings_fg {om} (ho : OmFg f om) {n} (bs : List BId) : (∀ b ∈ bs, Oth f U b) →
    ∀ {s : State} {nb nf}, Fg f U s →
    Ret (fun x => Fg f U x.1) (processBindings env om n bs s nb nf) := by
  induction bs with
  | nil => intro _ s nb nf h; exact Ret.ok h
  | cons b bs ih =>
    intro hbs s nb nf h
    refine Ret.any (fun xb => Ret.bind (rewriteOrders_fg ho h (hbs b (by simp))) ?_)
    rintro ⟨s1, rr⟩ h1
    dsimp only
    have key : ∀ {s2 nf2}, Fg f U s2 → Ret (fun x => Fg f U x.1) (if rr.binding = true then do
          let nb ← addNew env n nb xb.user.name b
          processBindings env om n bs s2 nb nf2
        else do
          let nb ← Except.ok nb
          processBindings env om n bs s2 nb nf2) := by
      intro s2 nf2 h2
      have hbs' : ∀ b ∈ bs, Oth f U b := fun c hc => hbs c (by simp [hc])
      exact Ret.ite (Ret.any (fun nb2 => ih hbs' h2)) (ih hbs' h2)
    refine Ret.ite ?_ (key h1)
    refine Ret.bind (prepareSymbol_fg h1 b) ?_
    rintro ⟨s3, ok⟩ h3
    dsimp only
    exact Ret.ite (key h3) (Ret.any (fun t => key (s2 := { s3 with notFound := t }) (h3.of rfl rfl)))

theorem write_tab {s s' : State} {a v} (e : s.write a v = .ok s') : s'.funTab = s.funTab := by
  unfold State.write at e
  split at e
  · cases e; rfl
  · cases e

theorem writeRelocs_tab {tb : HTable Name BId} {base} (rl : List (Addr × Name)) :
    ∀ {s s' : State}, writeRelocs tb base rl s = .ok s' → s'.funTab = s.funTab := by
  induction rl with
  | nil => intro s s' e; cases e; rfl
  | cons q rl ih =>
    intro s s' e
    obtain ⟨off, name⟩ := q
    obtain ⟨o, -, e⟩ := ebind e
    cases o with
    | none => exact ih e
    | some b =>
      obtain ⟨x, -, e⟩ := ebind e
      obtain ⟨s1, h1, e⟩ := ebind e
      exact (ih e).trans (write_tab h1)

theorem unprotect_tab (rs : List (Addr × BitVec 64)) : ∀ s : State,
    (rs.foldl (State.unprotect env) s).funTab = s.funTab := by
  induction rs with
  | nil => intro s; rfl
  | cons r rs ih =>
    intro s
    rw [List.foldl_cons, ih]
    unfold State.unprotect
    split <;> rfl

theorem updateLib_fg {tb : HTable Name BId} {s : State} (h : Fg f U s) (l n) :
    Ret (Fg f U) (s.updateLib env tb l n) := by
  intro s' e0
  refine ⟨?_, by rw [updateLib_users e0]; exact h.pre⟩
  suffices hs : Ret (fun x => ∃ m, TabMap strhash x.funTab m ∧ m f = none) (s.updateLib env tb l n) from
    hs _ e0
  refine Ret.bind (ensureLib_fg h l) ?_
  rintro ⟨s1, r⟩ h1
  dsimp only at h1 ⊢
  refine Ret.any (fun acc => Ret.ite (Ret.ok h1.tab) ?_)
  split
  · exact Ret.err
  · have tail : ∀ (s2 : State), s2.funTab = s1.funTab →
        Ret (fun x => ∃ m, TabMap strhash x.funTab m ∧ m f = none) (do
        match ← Elf.relocs l.img with
        | none => Except.ok s2
        | some rl =>
          let s ← writeRelocs tb l.addr rl s2
          .ok { s with libs := s.libs.modify r (fun x => { x with gen := s.gen }) }) := by
      intro s2 h2
      refine Ret.any (fun o => ?_)
      cases o with
      | none => exact Ret.ok (by rw [h2]; exact h1.tab)
      | some rl =>
        refine Ret.bind (Q := fun s3 => s3.funTab = s1.funTab) (fun s3 e => ?_)
          (fun s3 h3 => Ret.ok ?_)
        · exact (writeRelocs_tab _ e).trans h2
        · show ∃ m, TabMap strhash s3.funTab m ∧ m f = none
          rw [h3]; exact h1.tab
    refine Ret.ite (Ret.ok h1.tab) (Ret.ite (tail _ rfl) ?_)
    refine Ret.bind (Q := fun s2 => s2.funTab = s1.funTab) ?_ (fun s2 h2 => tail _ h2)
    intro s2 e
    unfold State.markGotWritable at e
    split at e
    · cases e
    · cases e
      exact unprotect_tab _ _

theorem updateLibs_fg {tb : HTable Name BId} (ls : List Lib) :
    ∀ {s : State}, Fg f U s → Ret (Fg f U) (updateLibs env tb ls s) := by
  induction ls with
  | nil => intro s h; exact Ret.ok h
  | cons l ls ih =>
    intro s h
    exact Ret.bind (updateLib_fg h l _) (fun s1 h1 => ih h1)

theorem setHandles_tab (tbl : List UBinding) : ∀ s : State,
    (tbl.foldl (fun s u => s.setHandle u.handle none) s).funTab = s.funTab := by
  induction tbl with
  | nil => intro s; rfl
  | cons u us ih => intro s; rw [List.foldl_cons, ih]; rfl

theorem addBindings_tab (tid : Nat) (tbl : List UBinding) : ∀ s : State,
    (addBindings tid tbl s).funTab = s.funTab := by
  induction tbl with
  | nil => intro s; rfl
  | cons u us ih => intro s; rw [addBindings, ih]; rfl

/-- The bindings of a table without `f`. -/
theorem range_oth {V tbl : List UBinding} (hf : f ∉ tbl.map UBinding.name) {b : BId}
    (hb : b ∈ List.range' V.length tbl.length) : Oth f (V ++ tbl) b := by
  rw [List.mem_range'_1] at hb
  have hl : b - V.length < tbl.length := by omega
  refine ⟨tbl[b - V.length], ?_, fun e => hf ?_⟩
  · rw [List.getElem?_append_right hb.1, List.getElem?_eq_getElem hl]
  · rw [← e]; exact List.mem_map.2 ⟨_, List.getElem_mem hl, rfl⟩

/-- After the preparation of a table. -/
theorem prepared_fg {s : State} (h : Fg f U s) (tbl ts tid g) :
    Fg f (users s ++ tbl) (addBindings tid tbl
      { (tbl.foldl (fun s u => s.setHandle u.handle none) s) with tools := ts, gen := g }) ∧
    (tbl.foldl (fun s u => s.setHandle u.handle none) s).binds.length = (users s).length := by
  have hu := setHandles_users tbl s
  refine ⟨⟨?_, ?_⟩, ?_⟩
  · rw [addBindings_tab]
    show ∃ m, TabMap strhash (tbl.foldl (fun s u => s.setHandle u.handle none) s).funTab m ∧ m f = none
    rw [setHandles_tab]
    exact h.tab
  · rw [addBindings_users]
    rw [show users { (tbl.foldl (fun s u => s.setHandle u.handle none) s) with tools := ts, gen := g } =
      users (tbl.foldl (fun s u => s.setHandle u.handle none) s) from rfl, hu]
    exact List.prefix_refl _
  · rw [← hu, users, List.length_map]

theorem wrapCore_fg {om} (ho : OmFg f om) {tbl tool} (hf : f ∉ tbl.map UBinding.name) {s : State}
    (h : Fg f U s) : Ret (fun x => Fg f U x.1) (wrapCore env om tbl tool s) := by
  unfold wrapCore
  dsimp only
  refine Ret.any ?_
  rintro ⟨ts, tid⟩
  dsimp only
  obtain ⟨h1, h2⟩ := prepared_fg h tbl ts tid
    ((tbl.foldl (fun s u => s.setHandle u.handle none) s).gen + 1)
  have hp : U <+: users s ++ tbl := h.pre.trans (List.prefix_append _ _)
  refine Ret.bind (processBindings_fg (U := users s ++ tbl) ho _ ?_ h1) ?_
  · intro b hb
    rw [h2] at hb
    exact range_oth hf hb
  rintro ⟨s2, nb, nf⟩ h2
  cases nb with
  | none => exact Ret.ok (h2.lower hp)
  | some tb => exact Ret.bind (updateLibs_fg _ h2) (fun s3 h3 => Ret.ok (h3.lower hp))

theorem onMain_fg (h1 : f ≠ nm "__libc_start_main") (h2 : f ≠ nm "main") : OmFg f (onMainReal env) := by
  intro U s h
  unfold onMainReal
  have hinner : OmFg f (fun s => .ok s) := fun h => Ret.ok h
  refine Ret.ite (Ret.ok h) ?_
  refine Ret.bind (wrapCore_fg hinner (by simpa [libcMainTable] using h1)
    (s := { s with mainWrapped := true }) (h.of rfl rfl)) ?_
  rintro ⟨s2, c2⟩ h3
  refine Ret.bind (wrapCore_fg hinner (by simpa [mainTable] using h2) h3) ?_
  rintro ⟨s3, c3⟩ h4
  exact Ret.ok h4

theorem perBinding_fg {s : State} (h : Fg f U s) (k d) :
    Ret (fun x => Fg f U x.1) (perBinding env k d s) := by
  unfold perBinding
  cases k with
  | none => exact Ret.err
  | some k =>
    cases d with
    | none => exact Ret.err
    | some d =>
      refine Ret.any (fun b => Ret.bind (prepareSymbol_fg h b) ?_)
      rintro ⟨s3, ok⟩ h3
      dsimp only
      exact Ret.ite (Ret.any (fun tb => Ret.ok (h3.of rfl rfl))) (Ret.ok h3)

theorem foreachEntry_fg : ∀ fuel cur {s : State}, Fg f U s →
    Ret (Fg f U) (foreachEntry State.notFound (perBinding env) fuel cur s) := by
  intro fuel
  induction fuel with
  | zero =>
    intro cur s h
    cases cur with
    | none => exact Ret.ok h
    | some i => exact Ret.err
  | succ fuel ih =>
    intro cur s h
    cases cur with
    | none => exact Ret.ok h
    | some i =>
      rw [foreachEntry]
      split
      · exact Ret.err
      · split
        · exact Ret.err
        · rename_i h1
          exact Ret.ok (perBinding_fg h _ _ _ h1)
        · rename_i h1
          have h2 := perBinding_fg h _ _ _ h1
          split
          · exact Ret.err
          · exact ih _ h2

/-! ### memory -/

/-- Memory, link map and function table are those of `s0`. -/
structure Fr (s0 s : State) : Prop where
  mem : s.mem = s0.mem
  map : s.linkMap = s0.linkMap
  tab : s.funTab = s0.funTab

variable {s0 : State}

theorem setInternal_fr {s : State} (h : Fr s0 s) (hd v) : Ret (Fr s0) (s.setInternal hd v) := by
  unfold State.setInternal
  split
  · exact Ret.err
  · exact Ret.ite (Ret.ok ⟨h.mem, h.map, h.tab⟩) Ret.err

theorem ensureLib_fr {s : State} (h : Fr s0 s) (l) : Ret (fun x => Fr s0 x.1) (s.ensureLib l) := by
  refine Ret.any (fun o => ?_)
  cases o with
  | some r => exact Ret.ok h
  | none => exact Ret.any (fun t => Ret.ok ⟨h.mem, h.map, h.tab⟩)

theorem lookupExported_fr {s : State} (h : Fr s0 s) (n l) :
    Ret (fun x => Fr s0 x.1) (s.lookupExported env n l) := by
  have hv : Fr s0 (s.isVdso env l).1 := by
    unfold State.isVdso
    split <;> exact ⟨h.mem, h.map, h.tab⟩
  unfold State.lookupExported
  cases hx : s.isVdso env l with
  | mk s1 b =>
    rw [hx] at hv
    cases b with
    | true => exact Ret.ok hv
    | false =>
      simp only
      split
      · exact Ret.err
      · exact Ret.ok hv

theorem prepareLoop_fr {n hd} (ls : List Lib) : ∀ {s : State}, Fr s0 s →
    Ret (fun x => Fr s0 x.1) (prepareLoop env n hd ls s) := by
  induction ls with
  | nil => intro s h; exact Ret.ok h
  | cons l ls ih =>
    intro s h
    refine Ret.bind (ensureLib_fr h l) ?_
    rintro ⟨s1, r⟩ h1
    refine Ret.bind (lookupExported_fr h1 n l) ?_
    rintro ⟨s2, o⟩ h2
    cases o with
    | some x => exact Ret.bind (setInternal_fr h2 _ _) (fun s3 h3 => Ret.ok h3)
    | none => exact ih h2

theorem perBinding_fr {s : State} (h : Fr s0 s) (k d) :
    Ret (fun x => Fr s0 x.1) (perBinding env k d s) := by
  unfold perBinding
  cases k with
  | none => exact Ret.err
  | some k =>
    cases d with
    | none => exact Ret.err
    | some d =>
      refine Ret.any (fun b => Ret.bind (Ret.any (fun _ => prepareLoop_fr _ h)) ?_)
      rintro ⟨s3, ok⟩ h3
      dsimp only
      exact Ret.ite (Ret.any (fun tb => Ret.ok ⟨h3.mem, h3.map, h3.tab⟩)) (Ret.ok h3)

theorem foreachEntry_fr : ∀ fuel cur {s : State}, Fr s0 s →
    Ret (Fr s0) (foreachEntry State.notFound (perBinding env) fuel cur s) := by
  intro fuel
  induction fuel with
  | zero =>
    intro cur s h
    cases cur with
    | none => exact Ret.ok h
    | some i => exact Ret.err
  | succ fuel ih =>
    intro cur s h
    cases cur with
    | none => exact Ret.ok h
    | some i =>
      rw [foreachEntry]
      split
      · exact Ret.err
      · split
        · exact Ret.err
        · rename_i h1
          exact Ret.ok (perBinding_fr h _ _ _ h1)
        · rename_i h1
          have h2 := perBinding_fr h _ _ _ h1
          split
          · exact Ret.err
          · exact ih _ h2

/-- A word that is only a slot of `f` is not written with a table without `f`. -/
theorem writeRelocs_mem {tb : HTable Name BId} (ht : nameLookup tb f = .ok none) {base a : Addr}
    (rl : List (Addr × Name)) : (∀ q ∈ rl, a = base + q.1 → q.2 = f) → ∀ {s s' : State},
    writeRelocs tb base rl s = .ok s' → s'.mem a = s.mem a := by
  induction rl with
  | nil => intro _ s s' e; cases e; rfl
  | cons q rl ih =>
    intro hq s s' e
    obtain ⟨off, name⟩ := q
    have hq' : ∀ q ∈ rl, a = base + q.1 → q.2 = f := fun x hx => hq x (by simp [hx])
    obtain ⟨o, ho, e⟩ := ebind e
    cases o with
    | none => exact ih hq' e
    | some b =>
      obtain ⟨x, -, e⟩ := ebind e
      obtain ⟨s1, h1, e⟩ := ebind e
      rw [ih hq' e]
      unfold State.write at h1
      split at h1
      · cases h1
        show (if a = base + off then _ else s.mem a) = s.mem a
        rw [if_neg]
        intro ha
        have := hq (off, name) (by simp) ha
        simp only at this
        rw [this, ht] at ho
        cases ho
      · cases h1

theorem unprotect_mem (rs : List (Addr × BitVec 64)) : ∀ s : State,
    (rs.foldl (State.unprotect env) s).mem = s.mem := by
  induction rs with
  | nil => intro s; rfl
  | cons r rs ih =>
    intro s
    rw [List.foldl_cons, ih]
    unfold State.unprotect
    split <;> rfl

theorem updateLib_mem {tb : HTable Name BId} (ht : nameLookup tb f = .ok none) {a : Addr} {l n}
    (hl : ∀ rl, Elf.relocs l.img = .ok (some rl) → ∀ q ∈ rl, a = l.addr + q.1 → q.2 = f) {s : State} :
    Ret (fun x => x.mem a = s.mem a) (s.updateLib env tb l n) := by
  refine Ret.bind (ensureLib_fr (s0 := s) ⟨rfl, rfl, rfl⟩ l) ?_
  rintro ⟨s1, r⟩ h1
  dsimp only at h1 ⊢
  have hm1 : s1.mem a = s.mem a := by rw [h1.mem]
  refine Ret.any (fun acc => Ret.ite (Ret.ok hm1) ?_)
  split
  · exact Ret.err
  · have tail : ∀ (s2 : State), s2.mem a = s.mem a → Ret (fun x => x.mem a = s.mem a) (do
        match ← Elf.relocs l.img with
        | none => Except.ok s2
        | some rl =>
          let s ← writeRelocs tb l.addr rl s2
          .ok { s with libs := s.libs.modify r (fun x => { x with gen := s.gen }) }) := by
      intro s2 h2 s3 e
      obtain ⟨o, ho, e⟩ := ebind e
      cases o with
      | none => cases e; exact h2
      | some rl =>
        obtain ⟨s4, h4, e⟩ := ebind e
        cases e
        exact (writeRelocs_mem ht rl (hl rl ho) h4).trans h2
    refine Ret.ite (Ret.ok hm1) (Ret.ite (tail _ hm1) ?_)
    refine Ret.bind (Q := fun s2 => s2.mem a = s.mem a) ?_ (fun s2 h2 => tail _ h2)
    intro s2 e
    unfold State.markGotWritable at e
    split at e
    · cases e
    · cases e
      show (List.foldl _ _ _ : State).mem a = s.mem a
      rw [unprotect_mem]; exact hm1

theorem updateLibs_mem {tb : HTable Name BId} (ht : nameLookup tb f = .ok none) {a : Addr} (ls : List Lib) :
    (∀ l ∈ ls, ∀ rl, Elf.relocs l.img = .ok (some rl) → ∀ q ∈ rl, a = l.addr + q.1 → q.2 = f) →
    ∀ {s s' : State}, updateLibs env tb ls s = .ok s' → s'.mem a = s.mem a := by
  induction ls with
  | nil => intro _ s s' e; cases e; rfl
  | cons l ls ih =>
    intro hl s s' e
    obtain ⟨s1, h1, e⟩ := ebind e
    rw [ih (fun x hx => hl x (by simp [hx])) e]
    exact updateLib_mem ht (hl l (by simp)) _ h1

theorem dlopenWrapper_mem {a : Addr} {ld : Load} {s s' : State} (ht : nameLookup s.funTab f = .ok none)
    (hl : ∀ l ∈ s.linkMap ++ ld.libs, ∀ rl, Elf.relocs l.img = .ok (some rl) →
      ∀ q ∈ rl, a = l.addr + q.1 → q.2 = f)
    (e : dlopenWrapper env ld s = .ok s') : s'.mem a = (s.load ld).mem a := by
  obtain ⟨w, -, e⟩ := ebind e
  obtain ⟨s1, h1, e⟩ := ebind e
  have h2 := foreachEntry_fr _ _ (s0 := s.load ld) ⟨rfl, rfl, rfl⟩ _ h1
  rw [updateLibs_mem (by rw [h2.tab]; exact ht) _ (by rw [h2.map]; exact hl) e, h2.mem]

/-! ### threads -/

/-- The thread is not going to bind `f`. -/
def ThOth (f : Name) (U : List UBinding) : Thread → Prop
  | .call table _ => f ∉ table.map UBinding.name
  | .bind _ todo _ _ => ∀ b ∈ todo, Oth f U b
  | _ => True

theorem ThOth.raise {V : List UBinding} {t} (h : ThOth f U t) (hp : U <+: V) : ThOth f V t := by
  cases t with
  | bind n todo nb nf => exact fun b hb => (h b hb).raise hp
  | call tbl tool => exact h
  | _ => trivial

theorem stepThread_fg (ho : OmFg f (onMainReal env)) {s : State} (h : Fg f U s) {t} (ht : ThOth f U t) :
    Ret (fun x => ∃ V, U <+: V ∧ Fg f V x.1 ∧ ThOth f V x.2) (stepThread env t s) := by
  have same : ∀ {s' : State} {t' : Thread}, Fg f U s' → ThOth f U t' →
      Ret (fun x => ∃ V, U <+: V ∧ Fg f V x.1 ∧ ThOth f V x.2) (.ok (s', t')) :=
    fun h1 h2 => Ret.ok ⟨U, List.prefix_refl _, h1, h2⟩
  cases t with
  | call tbl tool =>
    unfold stepThread
    dsimp only
    refine Ret.any ?_
    rintro ⟨ts, tid⟩
    dsimp only
    obtain ⟨h1, h2⟩ := prepared_fg h tbl ts tid
      ((tbl.foldl (fun s u => s.setHandle u.handle none) s).gen + 1)
    refine Ret.ok ⟨_, h.pre.trans (List.prefix_append _ _), h1, fun b hb => ?_⟩
    rw [h2] at hb
    exact range_oth ht hb
  | bind n todo nb nf =>
    cases todo with
    | cons b bs =>
      refine Ret.bind (processBindings_fg ho [b] (fun c hc => ht c (by simp at hc; simp [hc])) h) ?_
      rintro ⟨s1, nb1, nf1⟩ h1
      exact same h1 (fun c hc => ht c (by simp [hc]))
    | nil =>
      cases nb with
      | none => exact same h trivial
      | some tb => exact same h trivial
  | write tb i nf =>
    rw [stepThread]
    split
    · exact same h trivial
    · exact Ret.bind (updateLib_fg h _ _) (fun s1 h1 => same h1 trivial)
  | ret c => exact same h trivial
  | dlcall ld => exact Ret.any (fun _ => same (h.of rfl rfl) trivial)
  | dlscan => exact Ret.bind (foreachEntry_fg _ _ h) (fun s1 h1 => same h1 trivial)
  | dlwrite i =>
    rw [stepThread]
    split
    · exact same h trivial
    · exact Ret.bind (updateLib_fg h _ _) (fun s1 h1 => same h1 trivial)
  | dlret => exact same h trivial

/-- Likewise with `gotcha_init`. -/
def ItOth (f : Name) (U : List UBinding) : InitThread → Prop
  | .enter table _ => f ∉ table.map UBinding.name
  | .checked table _ => f ∉ table.map UBinding.name
  | .marked table _ => f ∉ table.map UBinding.name
  | .libdl th table _ => ThOth f U th ∧ f ∉ table.map UBinding.name
  | .go th => ThOth f U th

theorem ItOth.raise {V : List UBinding} {t} (h : ItOth f U t) (hp : U <+: V) : ItOth f V t := by
  cases t with
  | libdl th tbl tool => exact ⟨ThOth.raise h.1 hp, h.2⟩
  | go th => exact ThOth.raise h hp
  | _ => exact h

theorem setupTables_fg (hpg : 48 ≤ env.page) {s : State} (hp : U <+: users s) :
    Ret (Fg f U) (setupTables env s) := by
  intro s' e
  obtain ⟨lt, -, e⟩ := ebind e
  obtain ⟨ft, h2, e⟩ := ebind e
  obtain ⟨nt, -, e⟩ := ebind e
  cases e
  obtain ⟨t, e1, h1⟩ := create_tab (D := BId) strhash hpg (initial := 4096) (by omega)
  rw [e1] at h2
  cases h2
  exact ⟨⟨_, h1, rfl⟩, hp⟩

theorem dlTable_oth (h1 : f ≠ nm "dlopen") (h2 : f ≠ nm "dlsym") :
    f ∉ (dlTable env).map UBinding.name := by
  simp [dlTable, h1, h2]

theorem stepInit_fg (ho : OmFg f (onMainReal env)) (hpg : 48 ≤ env.page) (h1 : f ≠ nm "dlopen")
    (h2 : f ≠ nm "dlsym") {s : State} (h : Fg f U s) {t} (ht : ItOth f U t) :
    Ret (fun x => ∃ V, U <+: V ∧ Fg f V x.1 ∧ ItOth f V x.2) (stepInit env t s) := by
  have same : ∀ {s' : State} {t' : InitThread}, Fg f U s' → ItOth f U t' →
      Ret (fun x => ∃ V, U <+: V ∧ Fg f V x.1 ∧ ItOth f V x.2) (.ok (s', t')) :=
    fun h1 h2 => Ret.ok ⟨U, List.prefix_refl _, h1, h2⟩
  cases t with
  | enter tbl tool => exact Ret.ite (same h ht) (same h ht)
  | checked tbl tool => exact same (h.of rfl rfl) ht
  | marked tbl tool =>
    exact Ret.bind (setupTables_fg hpg h.pre) (fun s1 h3 => same h3 ⟨dlTable_oth h1 h2, ht⟩)
  | go th =>
    refine Ret.bind (stepThread_fg ho h ht) ?_
    rintro ⟨s1, th1⟩ ⟨V, h3, h4, h5⟩
    exact Ret.ok ⟨V, h3, h4, h5⟩
  | libdl th tbl tool =>
    have other : Ret (fun x => ∃ V, U <+: V ∧ Fg f V x.1 ∧ ItOth f V x.2) (do
        let (s, th) ← stepThread env th s
        .ok (s, InitThread.libdl th tbl tool)) := by
      refine Ret.bind (stepThread_fg ho h ht.1) ?_
      rintro ⟨s1, th1⟩ ⟨V, h3, h4, h5⟩
      exact Ret.ok ⟨V, h3, h4, h5, ht.2⟩
    cases th with
    | ret c => exact same h ht.2
    | _ => exact other

theorem runInit_fg (ho : OmFg f (onMainReal env)) (hpg : 48 ≤ env.page) (h1 : f ≠ nm "dlopen")
    (h2 : f ≠ nm "dlsym") (σ : List Nat) : ∀ {U s ts}, Fg f U s → (∀ t ∈ ts, ItOth f U t) →
    Ret (fun x => ∃ m, TabMap strhash x.1.funTab m ∧ m f = none) (runInit env σ ts s) := by
  induction σ with
  | nil => intro U s ts h _; exact Ret.ok h.tab
  | cons i σ ih =>
    intro U s ts h hts
    unfold runInit
    split
    · exact ih h hts
    · rename_i t ht
      refine Ret.bind (stepInit_fg ho hpg h1 h2 h (hts t (List.mem_of_getElem? ht))) ?_
      rintro ⟨s1, t1⟩ ⟨V, h3, h4, h5⟩
      refine ih h4 (fun t' ht' => ?_)
      rcases List.mem_or_eq_of_mem_set ht' with ht' | rfl
      · exact (hts t' ht').raise h3
      · exact h5

end Forget
end Gotcha
