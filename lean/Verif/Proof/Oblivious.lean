import Verif.Spec.Lazy
/-
GOTCHA never reads the words it overwrites: states that differ in memory only are treated alike.
-/
namespace Gotcha
open Spec

/-- The same fault, or related results. -/
inductive RelE {α : Type} (R : α → α → Prop) : Except Fault α → Except Fault α → Prop
  | err {f} : RelE R (.error f) (.error f)
  | ok {x y} : R x y → RelE R (.ok x) (.ok y)

theorem RelE.bind {α β : Type} {R : α → α → Prop} {Q : β → β → Prop} {r r' : Except Fault α}
    {g g' : α → Except Fault β} (h : RelE R r r') (hg : ∀ x y, R x y → RelE Q (g x) (g' y)) :
    RelE Q (r >>= g) (r' >>= g') := by
  cases h with
  | err => exact .err
  | ok h => exact hg _ _ h

/-- The same computation first. -/
theorem RelE.same {α β : Type} {Q : β → β → Prop} {r : Except Fault α} {g g' : α → Except Fault β}
    (hg : ∀ x, RelE Q (g x) (g' x)) : RelE Q (r >>= g) (r >>= g') := by
  cases r with
  | error f => exact .err
  | ok x => exact hg x

/-- The same state but for memory, where the words are related by `L`. -/
structure Near (L : Addr → Addr → Addr → Prop) (s e : State) : Prop where
  same : s = { e with mem := s.mem }
  mem : ∀ a, L a (s.mem a) (e.mem a)

/-- The same, with results. -/
def NearP {α : Type} (L : Addr → Addr → Addr → Prop) (x y : State × α) : Prop := Near L x.1 y.1 ∧ x.2 = y.2

section
variable {L : Addr → Addr → Addr → Prop}

/-- States are related by giving the memory of the first. -/
theorem near_iff {s e : State} : Near L s e ↔ ∃ m, s = { e with mem := m } ∧ ∀ a, L a (m a) (e.mem a) :=
  ⟨fun h => ⟨s.mem, h.same, h.mem⟩, by rintro ⟨m, rfl, hm⟩; exact ⟨rfl, hm⟩⟩

theorem near_ensureLib {s e : State} (h : Near L s e) (l : Lib) :
    RelE (NearP L) (s.ensureLib l) (e.ensureLib l) := by
  obtain ⟨m, rfl, hm⟩ := near_iff.1 h
  unfold State.ensureLib
  refine RelE.same (r := e.libTab.lookup (linkMapHash l) (linkMapEq l.lm)) fun x => ?_
  cases x with
  | some r => exact .ok ⟨h, rfl⟩
  | none =>
    refine RelE.same (r := e.libTab.addto l.lm e.libs.length (linkMapHash l)) fun t => ?_
    exact .ok ⟨⟨rfl, hm⟩, rfl⟩

theorem near_isVdso {s e : State} (h : Near L s e) (env : Env) (l : Lib) :
    NearP L (s.isVdso env l) (e.isVdso env l) := by
  obtain ⟨m, rfl, hm⟩ := near_iff.1 h
  simp only [State.isVdso]
  split
  · exact ⟨h, rfl⟩
  · exact ⟨⟨rfl, hm⟩, rfl⟩

theorem near_lookupExported {s e : State} (h : Near L s e) (env : Env) (f : Name) (l : Lib) :
    RelE (NearP L) (s.lookupExported env f l) (e.lookupExported env f l) := by
  have hv := near_isVdso h env l
  unfold State.lookupExported
  generalize s.isVdso env l = x at hv
  generalize e.isVdso env l = y at hv
  obtain ⟨s1, b⟩ := x
  obtain ⟨e1, b'⟩ := y
  obtain ⟨h1, h2⟩ := hv
  simp only at h1 h2
  subst h2
  cases b with
  | true => exact .ok ⟨h1, rfl⟩
  | false =>
    simp only
    cases Elf.exported l.img l.addr f with
    | error f => exact .err
    | ok r => exact .ok ⟨h1, rfl⟩

theorem near_firstExporting (env : Env) (f : Name) : ∀ (ls : List Lib) {s e : State}, Near L s e →
    RelE (NearP L) (firstExporting env f ls s) (firstExporting env f ls e) := by
  intro ls
  induction ls with
  | nil => intro s e h; exact .ok ⟨h, rfl⟩
  | cons l ls ih =>
    intro s e h
    simp only [firstExporting]
    refine (near_lookupExported h env f l).bind ?_
    rintro ⟨s1, r⟩ ⟨e1, _⟩ ⟨h1, rfl⟩
    cases r with
    | none => exact ih h1
    | some a => exact .ok ⟨h1, rfl⟩

theorem near_rtldNext {s e : State} (h : Near L s e) (env : Env) (f : Name) (who : Addr) :
    RelE (NearP L) (rtldNextLookup env f who s) (rtldNextLookup env f who e) := by
  have hl : s.linkMap = e.linkMap := by rw [h.same]
  unfold rtldNextLookup
  rw [hl]
  split
  · exact .err
  · exact .err
  · exact near_firstExporting env f _ h

/-- dlsym does not look at the slots either. -/
theorem near_dlsym {s e : State} (h : Near L s e) (env : Env) (real : RealDl) (hnd : DlHandle) (f : Name)
    (who : Addr) : RelE (NearP L) (dlsymWrapper env real hnd f who s) (dlsymWrapper env real hnd f who e) := by
  have hg : ∀ x, s.getWrappee x = e.getWrappee x := fun x => by rw [h.same]; rfl
  have hb : ∀ b, s.bind b = e.bind b := fun b => by rw [h.same]; rfl
  have ht : s.funTab = e.funTab := by rw [h.same]
  have hh : s.handles = e.handles := by rw [h.same]
  have ho : RelE (NearP L)
      (match hnd with
        | .next => do
          let (s, l) ← rtldNextLookup env f who s
          match l with
          | some l => .ok (s, real.dlsym (real.dlopen l.name) f)
          | none => .ok (s, 0)
        | .other _ => .ok (s, real.dlsym hnd f))
      (match hnd with
        | .next => do
          let (s, l) ← rtldNextLookup env f who e
          match l with
          | some l => .ok (s, real.dlsym (real.dlopen l.name) f)
          | none => .ok (s, 0)
        | .other _ => .ok (e, real.dlsym hnd f)) := by
    cases hnd with
    | other n => exact .ok ⟨h, rfl⟩
    | next =>
      refine (near_rtldNext h env f who).bind ?_
      rintro ⟨s1, r⟩ ⟨e1, _⟩ ⟨h1, rfl⟩
      cases r <;> exact .ok ⟨h1, rfl⟩
  unfold dlsymWrapper
  rw [hg, hg, ht, hh]
  refine RelE.same fun _ => RelE.same fun _ => RelE.same fun o => ?_
  cases o with
  | none => exact ho
  | some b =>
    simp only
    rw [hb]
    refine RelE.same fun x => ?_
    split
    · cases e.handles x.user.handle with
      | none => exact .err
      | some _ => exact .ok ⟨h, rfl⟩
    · rw [hg]
      refine RelE.same fun w => ?_
      split
      · exact .ok ⟨h, rfl⟩
      · exact ho

theorem near_setInternal {s e : State} (h : Near L s e) (x : HAddr) (v : Option Addr) :
    RelE (Near L) (s.setInternal x v) (e.setInternal x v) := by
  obtain ⟨m, rfl, hm⟩ := near_iff.1 h
  simp only [State.setInternal]
  split
  · exact .err
  · split
    · exact .ok ⟨rfl, hm⟩
    · exact .err

theorem near_prepareLoop (env : Env) (f : Name) (x : HAddr) : ∀ (ls : List Lib) {s e : State}, Near L s e →
    RelE (NearP L) (prepareLoop env f x ls s) (prepareLoop env f x ls e) := by
  intro ls
  induction ls with
  | nil => intro s e h; exact .ok ⟨h, rfl⟩
  | cons l ls ih =>
    intro s e h
    simp only [prepareLoop]
    refine (near_ensureLib h l).bind ?_
    rintro ⟨s1, r⟩ ⟨e1, _⟩ ⟨h1, rfl⟩
    refine (near_lookupExported h1 env f l).bind ?_
    rintro ⟨s2, r⟩ ⟨e2, _⟩ ⟨h2, rfl⟩
    cases r with
    | none => exact ih h2
    | some a =>
      refine (near_setInternal h2 x (some a)).bind ?_
      intro s3 e3 h3
      exact .ok ⟨h3, rfl⟩

theorem near_prepareSymbol {s e : State} (h : Near L s e) (env : Env) (b : BId) :
    RelE (NearP L) (s.prepareSymbol env b) (e.prepareSymbol env b) := by
  obtain ⟨m, rfl, hm⟩ := near_iff.1 h
  unfold State.prepareSymbol
  refine RelE.same (r := e.bind b) fun x => ?_
  exact near_prepareLoop env _ _ _ h

theorem near_insertAtHead {s e : State} (h : Near L s e) (b head : BId) :
    RelE (Near L) (s.insertAtHead b head) (e.insertAtHead b head) := by
  obtain ⟨m, rfl, hm⟩ := near_iff.1 h
  unfold State.insertAtHead
  refine RelE.same (r := e.bind b) fun xb => ?_
  refine RelE.same (r := e.bind head) fun xh => ?_
  refine (near_setInternal ⟨rfl, hm⟩ _ _).bind ?_
  intro s1 e1 h1
  obtain ⟨m1, rfl, hm1⟩ := near_iff.1 h1
  refine RelE.same (r := e1.funTab.removefrom (strhash xb.user.name) (fun k => k = xb.user.name))
    fun t => ?_
  refine RelE.same fun t => ?_
  exact .ok ⟨rfl, hm1⟩

theorem near_insertAfter {s e : State} (h : Near L s e) (b pos : BId) :
    RelE (Near L) (s.insertAfter b pos) (e.insertAfter b pos) := by
  obtain ⟨m, rfl, hm⟩ := near_iff.1 h
  unfold State.insertAfter
  refine RelE.same (r := e.bind b) fun xb => ?_
  refine RelE.same (r := e.bind pos) fun xp => ?_
  refine (near_setInternal h _ _).bind fun s1 e1 h1 => ?_
  refine (near_setInternal h1 _ _).bind fun s2 e2 h2 => ?_
  obtain ⟨m2, rfl, hm2⟩ := near_iff.1 h2
  refine RelE.same (r := e2.bind pos) fun xp => ?_
  exact .ok ⟨rfl, hm2⟩

theorem findPos_mem (e : State) (m : Addr → Addr) (p : Int) (w : Addr) : ∀ n cur,
    findPos { e with mem := m } p w n cur = findPos e p w n cur := by
  intro n
  induction n with
  | zero => intro cur; rfl
  | succ n ih =>
    intro cur
    simp only [findPos, ih]
    rfl

theorem near_rewriteOrders {on : State → Except Fault State}
    (hon : ∀ s e, Near L s e → RelE (Near L) (on s) (on e)) {s e : State} (h : Near L s e) (b : BId) :
    RelE (NearP L) (rewriteOrders on s b) (rewriteOrders on e b) := by
  obtain ⟨m, rfl, hm⟩ := near_iff.1 h
  unfold rewriteOrders
  refine RelE.same (r := e.bind b) fun xb => ?_
  refine RelE.same (r := e.bindPriority b) fun p => ?_
  simp only
  split
  all_goals
    refine RelE.bind (R := Near L) (by first | exact hon _ _ h | exact .ok h) fun s1 e1 h1 => ?_
    obtain ⟨m1, rfl, hm1⟩ := near_iff.1 h1
    refine RelE.same (r := nameLookup e1.funTab xb.user.name) fun r => ?_
    cases r with
    | none =>
      refine RelE.same (r := e1.funTab.addto xb.user.name b (strhash xb.user.name)) fun t => ?_
      exact .ok ⟨⟨rfl, hm1⟩, rfl⟩
    | some head =>
      refine RelE.same (r := e1.bindPriority head) fun hp => ?_
      simp only
      split
      · refine (near_insertAtHead h1 b head).bind fun s2 e2 h2 => ?_
        exact .ok ⟨h2, rfl⟩
      · rw [findPos_mem]
        refine RelE.same fun r => ?_
        cases r with
        | none => exact .ok ⟨h1, rfl⟩
        | some pos =>
          refine (near_insertAfter h1 b pos).bind fun s2 e2 h2 => ?_
          exact .ok ⟨h2, rfl⟩

/-- Writing the same word to both keeps them related. -/
theorem near_write (hL : ∀ a v, L a v v) {s e : State} (h : Near L s e) (a v : Addr) :
    RelE (Near L) (s.write a v) (e.write a v) := by
  obtain ⟨m, rfl, hm⟩ := near_iff.1 h
  simp only [State.write]
  split
  · refine .ok ⟨rfl, fun x => ?_⟩
    simp only
    split
    · exact hL _ _
    · exact hm x
  · exact .err

theorem near_writeRelocs (hL : ∀ a v, L a v v) (t : HTable Name BId) (la : Addr) : ∀ (rl : List (Addr × Name))
    {s e : State}, Near L s e → RelE (Near L) (writeRelocs t la rl s) (writeRelocs t la rl e) := by
  intro rl
  induction rl with
  | nil => intro s e h; exact .ok h
  | cons q rl ih =>
    obtain ⟨off, f⟩ := q
    intro s e h
    obtain ⟨m, rfl, hm⟩ := near_iff.1 h
    simp only [writeRelocs]
    refine RelE.same fun r => ?_
    cases r with
    | none => exact ih h
    | some b =>
      refine RelE.same (r := e.bind b) fun x => ?_
      refine (near_write hL h _ _).bind fun s1 e1 h1 => ?_
      exact ih h1

theorem near_unprotect (env : Env) : ∀ (rs : List (Addr × BitVec 64)) {s e : State}, Near L s e →
    Near L (rs.foldl (State.unprotect env) s) (rs.foldl (State.unprotect env) e) := by
  intro rs
  induction rs with
  | nil => intro s e h; exact h
  | cons r rs ih =>
    intro s e h
    refine ih ?_
    obtain ⟨m, rfl, hm⟩ := near_iff.1 h
    unfold State.unprotect
    split
    · exact ⟨rfl, hm⟩
    · exact h

theorem near_markGotWritable (env : Env) {s e : State} (h : Near L s e) (l : Lib) :
    RelE (Near L) (s.markGotWritable env l) (e.markGotWritable env l) := by
  have hl : s.linkMap = e.linkMap := by rw [h.same]
  unfold State.markGotWritable
  rw [hl]
  split
  · exact .err
  · exact .ok (near_unprotect env _ h)

theorem near_updateLib (hL : ∀ a v, L a v v) (env : Env) (t : HTable Name BId) {s e : State} (h : Near L s e)
    (l : Lib) (n : Bool) : RelE (Near L) (s.updateLib env t l n) (e.updateLib env t l n) := by
  unfold State.updateLib
  refine (near_ensureLib h l).bind ?_
  rintro ⟨s1, r⟩ ⟨e1, _⟩ ⟨h1, rfl⟩
  obtain ⟨m1, hs1, hm1⟩ := near_iff.1 h1
  simp only at hs1
  subst hs1
  refine RelE.same (r := e1.filter.accepts l n) fun acc => ?_
  cases acc with
  | false => exact .ok h1
  | true =>
    show RelE (Near L) (match e1.libs[r]? with | none => _ | some rec => _)
      (match e1.libs[r]? with | none => _ | some rec => _)
    cases e1.libs[r]? with
    | none => exact .err
    | some rec =>
      show RelE (Near L) (if rec.gen = e1.gen then _ else _) (if rec.gen = e1.gen then _ else _)
      split
      · exact .ok h1
      · have tail : ∀ {s2 e2 : State}, Near L s2 e2 → RelE (Near L)
            (do
              match ← Elf.relocs l.img with
              | none => .ok s2
              | some rl =>
                let s ← writeRelocs t l.addr rl s2
                .ok { s with libs := s.libs.modify r (fun x => { x with gen := s.gen }) })
            (do
              match ← Elf.relocs l.img with
              | none => .ok e2
              | some rl =>
                let s ← writeRelocs t l.addr rl e2
                .ok { s with libs := s.libs.modify r (fun x => { x with gen := s.gen }) }) := by
          intro s2 e2 h2
          refine RelE.same fun rl => ?_
          cases rl with
          | none => exact .ok h2
          | some rl =>
            refine (near_writeRelocs hL t _ rl h2).bind fun s3 e3 h3 => ?_
            obtain ⟨m3, rfl, hm3⟩ := near_iff.1 h3
            exact .ok ⟨rfl, hm3⟩
        simp only at h1 ⊢
        split
        · exact tail h1
        · refine (near_markGotWritable env h1 l).bind fun s2 e2 h2 => ?_
          obtain ⟨m2, rfl, hm2⟩ := near_iff.1 h2
          exact tail ⟨rfl, hm2⟩

theorem near_updateLibs (hL : ∀ a v, L a v v) (env : Env) (t : HTable Name BId) : ∀ (ls : List Lib)
    {s e : State}, Near L s e → RelE (Near L) (updateLibs env t ls s) (updateLibs env t ls e) := by
  intro ls
  induction ls with
  | nil => intro s e h; exact .ok h
  | cons l ls ih =>
    intro s e h
    simp only [updateLibs]
    exact (near_updateLib hL env t h l _).bind fun s1 e1 h1 => ih h1

theorem near_updateAll (hL : ∀ a v, L a v v) (env : Env) (t : HTable Name BId) {s e : State}
    (h : Near L s e) : RelE (Near L) (s.updateAll env t) (e.updateAll env t) := by
  have hl : s.linkMap = e.linkMap := by rw [h.same]
  unfold State.updateAll
  rw [hl]
  exact near_updateLibs hL env t _ h

theorem near_addBindings (tid : Nat) : ∀ (us : List UBinding) {s e : State}, Near L s e →
    Near L (addBindings tid us s) (addBindings tid us e) := by
  intro us
  induction us with
  | nil => intro s e h; exact h
  | cons u us ih =>
    intro s e h
    obtain ⟨m, rfl, hm⟩ := near_iff.1 h
    simp only [addBindings]
    exact ih ⟨rfl, hm⟩

theorem near_processBindings (env : Env) {on : State → Except Fault State}
    (hon : ∀ s e, Near L s e → RelE (Near L) (on s) (on e)) (n : Nat) : ∀ (bs : List Nat) {s e : State} nb nf,
    Near L s e → RelE (NearP L) (processBindings env on n bs s nb nf) (processBindings env on n bs e nb nf) := by
  intro bs
  induction bs with
  | nil => intro s e nb nf h; exact .ok ⟨h, rfl⟩
  | cons b bs ih =>
    intro s e nb nf h
    obtain ⟨m, rfl, hm⟩ := near_iff.1 h
    simp only [processBindings]
    refine RelE.same (r := e.bind b) fun xb => ?_
    refine (near_rewriteOrders hon h b).bind ?_
    rintro ⟨s1, r⟩ ⟨e1, _⟩ ⟨h1, rfl⟩
    have tail : ∀ {s2 e2 : State} (nf2 : Nat), Near L s2 e2 → RelE (NearP L)
        (if r.binding = true then do
          let nb ← addNew env n nb xb.user.name b
          processBindings env on n bs s2 nb nf2
        else do
          let nb ← Except.ok nb
          processBindings env on n bs s2 nb nf2)
        (if r.binding = true then do
          let nb ← addNew env n nb xb.user.name b
          processBindings env on n bs e2 nb nf2
        else do
          let nb ← Except.ok nb
          processBindings env on n bs e2 nb nf2) := by
      intro s2 e2 nf2 h2
      split
      all_goals exact RelE.same fun nb => ih nb nf2 h2
    simp only at h1 ⊢
    split
    · refine (near_prepareSymbol h1 env b).bind ?_
      rintro ⟨s2, ok⟩ ⟨e2, _⟩ ⟨h2, rfl⟩
      simp only at h2 ⊢
      split
      · exact tail _ h2
      · obtain ⟨m2, rfl, hm2⟩ := near_iff.1 h2
        refine RelE.same fun t => ?_
        exact tail _ ⟨rfl, hm2⟩
    · exact tail _ h1

theorem near_setHandles : ∀ (us : List UBinding) {s e : State}, Near L s e →
    Near L (us.foldl (fun s u => s.setHandle u.handle none) s)
      (us.foldl (fun s u => s.setHandle u.handle none) e) := by
  intro us
  induction us with
  | nil => intro s e h; exact h
  | cons u us ih =>
    intro s e h
    obtain ⟨m, rfl, hm⟩ := near_iff.1 h
    exact ih ⟨rfl, hm⟩

theorem near_wrapCore (hL : ∀ a v, L a v v) (env : Env) {on : State → Except Fault State}
    (hon : ∀ s e, Near L s e → RelE (Near L) (on s) (on e)) (tbl : List UBinding) (tool : Option Name)
    {s e : State} (h : Near L s e) : RelE (NearP L) (wrapCore env on tbl tool s) (wrapCore env on tbl tool e) := by
  unfold wrapCore
  have h0 := near_setHandles tbl h
  generalize tbl.foldl (fun s u => s.setHandle u.handle none) s = s0 at h0
  generalize tbl.foldl (fun s u => s.setHandle u.handle none) e = e0 at h0
  obtain ⟨m, rfl, hm⟩ := near_iff.1 h0
  simp only
  refine RelE.same fun ts => ?_
  obtain ⟨ts, tid⟩ := ts
  simp only
  refine RelE.bind (near_processBindings env hon _ _ _ _ (near_addBindings tid tbl ⟨rfl, hm⟩)) ?_
  rintro ⟨s1, nb, nf⟩ ⟨e1, _, _⟩ ⟨h1, hx⟩
  cases hx
  simp only at h1 ⊢
  cases nb with
  | none => exact .ok ⟨h1, rfl⟩
  | some t => exact (near_updateAll hL env t h1).bind fun s2 e2 h2 => .ok ⟨h2, rfl⟩

theorem near_onMainReal (hL : ∀ a v, L a v v) (env : Env) {s e : State} (h : Near L s e) :
    RelE (Near L) (onMainReal env s) (onMainReal env e) := by
  obtain ⟨m, rfl, hm⟩ := near_iff.1 h
  unfold onMainReal
  simp only
  split
  · exact .ok h
  · refine (near_wrapCore hL env (fun s e h => .ok h) _ _ ⟨rfl, hm⟩).bind ?_
    rintro ⟨s1, r⟩ ⟨e1, _⟩ ⟨h1, rfl⟩
    refine (near_wrapCore hL env (fun s e h => .ok h) _ _ h1).bind ?_
    rintro ⟨s2, r⟩ ⟨e2, _⟩ ⟨h2, rfl⟩
    exact .ok h2

theorem near_wrapBody (hL : ∀ a v, L a v v) (env : Env) (tbl : List UBinding) (tool : Option Name)
    {s e : State} (h : Near L s e) : RelE (NearP L) (wrapBody env tbl tool s) (wrapBody env tbl tool e) :=
  near_wrapCore hL env (fun _ _ h => near_onMainReal hL env h) tbl tool h

theorem near_gotchaInit (hL : ∀ a v, L a v v) (env : Env) {s e : State} (h : Near L s e) :
    RelE (Near L) (gotchaInit env s) (gotchaInit env e) := by
  obtain ⟨m, rfl, hm⟩ := near_iff.1 h
  unfold gotchaInit
  simp only
  split
  · exact .ok h
  · refine RelE.same fun lt => RelE.same fun ft => RelE.same fun nt => ?_
    refine (near_wrapBody hL env _ _ ⟨rfl, hm⟩).bind ?_
    rintro ⟨s1, r⟩ ⟨e1, _⟩ ⟨h1, rfl⟩
    exact .ok h1

theorem innermost_mem (e : State) (m : Addr → Addr) : ∀ n b,
    innermost { e with mem := m } n b = innermost e n b := by
  intro n
  induction n with
  | zero => intro b; rfl
  | succ n ih =>
    intro b
    simp only [innermost, ih]
    rfl

theorem near_perBinding (env : Env) (k : Option Name) (d : Option BId) {s e : State} (h : Near L s e) :
    RelE (NearP L) (perBinding env k d s) (perBinding env k d e) := by
  obtain ⟨m, rfl, hm⟩ := near_iff.1 h
  unfold perBinding
  cases k with
  | none => exact .err
  | some k =>
    cases d with
    | none => exact .err
    | some b =>
      simp only [innermost_mem]
      refine RelE.same fun b => ?_
      refine (near_prepareSymbol h env b).bind ?_
      rintro ⟨s1, ok⟩ ⟨e1, _⟩ ⟨h1, rfl⟩
      simp only at h1 ⊢
      obtain ⟨m1, rfl, hm1⟩ := near_iff.1 h1
      split
      · refine RelE.same fun t => ?_
        exact .ok ⟨⟨rfl, hm1⟩, rfl⟩
      · exact .ok ⟨h1, rfl⟩

theorem near_foreach (env : Env) : ∀ (n : Nat) (i : Option Nat) {s e : State}, Near L s e →
    RelE (Near L) (foreachEntry State.notFound (perBinding env) n i s)
      (foreachEntry State.notFound (perBinding env) n i e) := by
  intro n
  induction n with
  | zero =>
    intro i s e h
    cases i with
    | none => exact .ok h
    | some i => exact .err
  | succ n ih =>
    intro i s e h
    cases i with
    | none => exact .ok h
    | some i =>
      have hn : s.notFound = e.notFound := by rw [h.same]
      simp only [foreachEntry, hn]
      cases e.notFound.slots[i]? with
      | none => exact .err
      | some en =>
        simp only
        have hp := near_perBinding env en.key en.data h
        generalize perBinding env en.key en.data s = x at hp
        generalize perBinding env en.key en.data e = y at hp
        cases hp with
        | err => exact .err
        | @ok x y hxy =>
          obtain ⟨s1, b⟩ := x
          obtain ⟨e1, b'⟩ := y
          obtain ⟨h1, h2⟩ := hxy
          simp only at h1 h2
          subst h2
          cases b with
          | true => exact .ok h1
          | false =>
            have hn1 : s1.notFound = e1.notFound := by rw [h1.same]
            simp only [hn1]
            cases e1.notFound.slots[i]? with
            | none => exact .err
            | some e' => exact ih _ h1

theorem near_afterDlopen (hL : ∀ a v, L a v v) (env : Env) {s e : State} (h : Near L s e) :
    RelE (Near L) (s.afterDlopen env) (e.afterDlopen env) := by
  have hn : s.notFound = e.notFound := by rw [h.same]
  unfold State.afterDlopen
  rw [hn]
  refine (near_foreach env _ _ h).bind fun s1 e1 h1 => ?_
  have hf : s1.funTab = e1.funTab := by rw [h1.same]
  rw [hf]
  exact near_updateAll hL env _ h1

/-- Loads that write related words. -/
structure NearLoad (L : Addr → Addr → Addr → Prop) (ld ld' : Load) : Prop where
  libs : ld.libs = ld'.libs
  wr : ld.wr = ld'.wr
  mem : ∀ a, (ld.mem a = none ∧ ld'.mem a = none) ∨ ∃ v w, ld.mem a = some v ∧ ld'.mem a = some w ∧ L a v w

theorem near_load {s e : State} (h : Near L s e) {ld ld' : Load} (hl : NearLoad L ld ld') :
    Near L (s.load ld) (e.load ld') := by
  obtain ⟨m, rfl, hm⟩ := near_iff.1 h
  obtain ⟨libs, mem, wr⟩ := ld
  obtain ⟨libs', mem', wr'⟩ := ld'
  obtain ⟨h1, h2, h3⟩ := hl
  simp only at h1 h2 h3
  subst h1 h2
  refine ⟨rfl, fun a => ?_⟩
  simp only [State.load]
  rcases h3 a with ⟨e1, e2⟩ | ⟨v, w, e1, e2, h4⟩
  · rw [e1, e2]; exact hm a
  · rw [e1, e2]; exact h4

/-- Events that differ at most in related words of loads. -/
inductive NearOp (L : Addr → Addr → Addr → Prop) : Op → Op → Prop
  | same {op} : NearOp L op op
  | dlopen {ld ld'} : NearLoad L ld ld' → NearOp L (.dlopen ld) (.dlopen ld')
  | load {ld ld'} : NearLoad L ld ld' → NearOp L (.load ld) (.load ld')

theorem NearLoad.refl (hL : ∀ a v, L a v v) (ld : Load) : NearLoad L ld ld := by
  refine ⟨rfl, rfl, fun a => ?_⟩
  cases h : ld.mem a with
  | none => exact .inl ⟨rfl, rfl⟩
  | some v => exact .inr ⟨v, v, rfl, rfl, hL a v⟩

theorem near_dlopen (hL : ∀ a v, L a v v) (env : Env) {s e : State} (h : Near L s e) {ld ld' : Load}
    (hl : NearLoad L ld ld') :
    RelE (NearP L) (stepOp env (.dlopen ld) s) (stepOp env (.dlopen ld') e) := by
  have hi : s.inited = e.inited := by rw [h.same]
  simp only [stepOp, hi]
  split
  · refine RelE.bind (R := Near L) ?_ fun s1 e1 h1 => .ok ⟨h1, rfl⟩
    unfold dlopenWrapper
    have hg : s.getWrappee env.hDlopen = e.getWrappee env.hDlopen := by rw [h.same]; rfl
    rw [hg]
    exact RelE.same fun _ => near_afterDlopen hL env (near_load h hl)
  · exact .ok ⟨near_load h hl, rfl⟩

/-- GOTCHA treats states that differ in memory only alike, in every event. -/
theorem near_step (hL : ∀ a v, L a v v) (env : Env) {s e : State} (h : Near L s e) {op op' : Op}
    (ho : NearOp L op op') : RelE (NearP L) (stepOp env op s) (stepOp env op' e) := by
  cases ho with
  | dlopen hl => exact near_dlopen hL env h hl
  | load hl => exact .ok ⟨near_load h hl, rfl⟩
  | same =>
    cases op with
    | wrap tbl tool =>
      simp only [stepOp, gotchaWrap, bind_assoc]
      refine (near_gotchaInit hL env h).bind fun s1 e1 h1 => ?_
      refine (near_wrapBody hL env tbl tool h1).bind ?_
      rintro ⟨s2, c⟩ ⟨e2, _⟩ ⟨h2, rfl⟩
      exact .ok ⟨h2, rfl⟩
    | setPriority t v =>
      simp only [stepOp, gotchaSetPriority, bind_assoc]
      refine (near_gotchaInit hL env h).bind fun s1 e1 h1 => ?_
      obtain ⟨m1, rfl, hm1⟩ := near_iff.1 h1
      refine RelE.same fun ts => ?_
      exact .ok ⟨⟨rfl, hm1⟩, rfl⟩
    | getPriority t =>
      simp only [stepOp, gotchaGetPriority, bind_assoc]
      refine (near_gotchaInit hL env h).bind fun s1 e1 h1 => ?_
      obtain ⟨m1, rfl, hm1⟩ := near_iff.1 h1
      refine RelE.same fun ts => ?_
      exact .ok ⟨⟨rfl, hm1⟩, rfl⟩
    | setFilter f =>
      obtain ⟨m, rfl, hm⟩ := near_iff.1 h
      exact .ok ⟨⟨rfl, hm⟩, rfl⟩
    | dlopen ld => exact near_dlopen hL env h (NearLoad.refl hL ld)
    | load ld => exact .ok ⟨near_load h (NearLoad.refl hL ld), rfl⟩
    | unload d =>
      obtain ⟨m, rfl, hm⟩ := near_iff.1 h
      exact .ok ⟨⟨rfl, hm⟩, rfl⟩

end

end Gotcha
