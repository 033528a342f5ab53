import Verif.Proof.Hash
import Verif.Spec.Records
import Verif.Proof.Users
/-
The library records in any execution, whatever the hashes of the objects.
-/
namespace Gotcha
open HTable
open Spec (confused owners)

/-- The library records as `get_library`/`add_library` make them, for objects seen in this order. -/
def seeAll : List Lib → State → Except Fault State
  | [], s => .ok s
  | l :: ls, s =>
    match s.ensureLib l with
    | .error f => .error f
    | .ok (s, _) => seeAll ls s

/-- The table and the records are those of `own`. -/
structure Recs (own : List Lib) (s : State) : Prop where
  repr : ∃ L items, Repr s.libTab L items ∧
    ∀ it, it ∈ items ↔ ∃ i l, own[i]? = some l ∧ it = (linkMapHash l, l.lm, i)
  recs : s.libs.map (·.map) = own.map (·.lm)

theorem linkMapEq_iff {a b : Addr} : linkMapEq a b = true ↔ a ≤ b := by
  unfold linkMapEq
  simp only [decide_eq_true_eq]
  exact BitVec.not_lt


/-- The table `gotcha_init` makes has no records. -/
theorem recs_create {page : Nat} (hp : 48 ≤ page) {initial : Nat} (hi : 0 < initial) {t}
    (ht : HTable.create page initial = .ok t) {s : State} (hs : s.libTab = t) (hl : s.libs = []) :
    Recs [] s := by
  have hpp : page / 48 ≠ 0 := by omega
  unfold create entrySize at ht
  simp only [hpp, if_false] at ht
  cases ht
  refine ⟨⟨[], [], ?_, by simp⟩, by rw [hl]; rfl⟩
  rw [hs]
  exact blank_repr (by split <;> omega)

theorem recs_lookup {own s} (h : Recs own s) (l : Lib) :
    (∃ (r : Nat) (a : Lib) (rec : LibRec),
      s.libTab.lookup (linkMapHash l) (linkMapEq l.lm) = .ok (some r) ∧
      own[r]? = some a ∧ confused a l ∧ s.libs[r]? = some rec ∧ rec.map = a.lm) ∨
    (s.libTab.lookup (linkMapHash l) (linkMapEq l.lm) = .ok none ∧
      ∀ a ∈ own, ¬ confused a l) := by
  obtain ⟨⟨L, items, r, hm⟩, hr⟩ := h
  rcases lookup_repr r (linkMapHash l) (linkMapEq l.lm) with ⟨it, h1, h2, h3⟩ | ⟨h1, h2⟩
  · left
    obtain ⟨i, a, hi, rfl⟩ := (hm it).1 h2
    have e : (s.libs.map (·.map))[i]? = some a.lm := by rw [hr]; simp [hi]
    rw [List.getElem?_map, Option.map_eq_some_iff] at e
    obtain ⟨rec, h4, h5⟩ := e
    exact ⟨i, a, rec, h1, hi, ⟨h3.1, linkMapEq_iff.1 h3.2⟩, h4, h5⟩
  · right
    refine ⟨h1, fun a ha hc => ?_⟩
    obtain ⟨i, hi⟩ := List.mem_iff_getElem?.1 ha
    exact h2 _ ((hm _).2 ⟨i, a, hi, rfl⟩) ⟨hc.1, linkMapEq_iff.2 hc.2⟩

theorem recs_ensure {own s} (h : Recs own s) (l : Lib) :
    ∃ s' r, s.ensureLib l = .ok (s', r) ∧
      Recs (if ∃ a ∈ own, confused a l then own else own ++ [l]) s' := by
  unfold State.ensureLib
  rcases recs_lookup h l with ⟨r, a, rec, h1, h2, h3, -, -⟩ | ⟨h1, h2⟩
  · refine ⟨s, r, by rw [h1]; rfl, ?_⟩
    rw [if_pos ⟨a, List.mem_of_getElem? h2, h3⟩]
    exact h
  · obtain ⟨⟨L, items, r, hm⟩, hr⟩ := h
    obtain ⟨t', L', items', h3, r', hp, -, -⟩ := addto_repr r l.lm s.libs.length (linkMapHash l)
    refine ⟨{ s with libTab := t', libs := s.libs ++ [⟨0, false, l.lm⟩] }, s.libs.length,
      by rw [h1]; simp only [bind, Except.bind, h3], ?_⟩
    rw [if_neg (by rintro ⟨a, ha, hc⟩; exact h2 a ha hc)]
    have hlen : s.libs.length = own.length := by simpa using congrArg List.length hr
    refine ⟨⟨L', _, r', ?_⟩, by simp [hr]⟩
    intro it
    rw [List.mem_cons, hp.mem_iff, hm]
    constructor
    · rintro (rfl | ⟨i, a, hi, rfl⟩)
      · exact ⟨s.libs.length, l, by rw [hlen]; simp, rfl⟩
      · refine ⟨i, a, ?_, rfl⟩
        have := (List.getElem?_eq_some_iff.1 hi).1
        rw [List.getElem?_append_left this]; exact hi
    · rintro ⟨i, a, hi, rfl⟩
      by_cases hlt : i < own.length
      · right; rw [List.getElem?_append_left hlt] at hi; exact ⟨i, a, hi, rfl⟩
      · left
        rw [List.getElem?_append_right (by omega)] at hi
        have := (List.getElem?_eq_some_iff.1 hi).1
        simp only [List.length_singleton] at this
        have e : i = own.length := by omega
        subst e
        simp at hi
        rw [hi, hlen]

theorem recs_seeAll : ∀ (ls : List Lib) {own s}, Recs own s →
    ∃ s', seeAll ls s = .ok s' ∧ Recs (owners own ls) s'
  | [], _, s, h => ⟨s, rfl, h⟩
  | l :: ls, own, s, h => by
    obtain ⟨s', r, h1, h2⟩ := recs_ensure h l
    obtain ⟨s2, h3, h4⟩ := recs_seeAll ls h2
    exact ⟨s2, by simp only [seeAll, h1]; exact h3, h4⟩


/-! ### all executions -/

/-- What the library records depend on. -/
def rv (s : State) : HTable Addr Nat × List Addr × List Lib × Bool :=
  (s.libTab, s.libs.map (·.map), s.linkMap, s.inited)

/-- The library records are those of some objects satisfying `U`, none of which is confused with an
earlier one; and all loaded objects satisfy `U`. -/
structure RInv (U : Lib → Prop) (s : State) : Prop where
  recs : s.inited = true → ∃ own, Recs own s ∧ (∀ a ∈ own, U a) ∧
    own.Pairwise (fun a b => ¬ confused a b)
  none : s.inited = false → s.libs = []
  map : ∀ l ∈ s.linkMap, U l

variable {U : Lib → Prop}

theorem RInv.frame {s s' : State} (h : RInv U s) (e : rv s' = rv s) : RInv U s' := by
  simp only [rv, Prod.mk.injEq] at e
  obtain ⟨e1, e2, e3, e4⟩ := e
  refine ⟨fun hi => ?_, fun hi => ?_, by rw [e3]; exact h.map⟩
  · obtain ⟨own, r, h1, h2⟩ := h.recs (e4 ▸ hi)
    exact ⟨own, ⟨by rw [e1]; exact r.repr, e2.trans r.recs⟩, h1, h2⟩
  · have := h.none (e4 ▸ hi)
    rw [this] at e2
    exact List.map_eq_nil_iff.1 e2

theorem setInternal_rv {s s' : State} {h v} (e : s.setInternal h v = .ok s') : rv s' = rv s := by
  unfold State.setInternal at e
  split at e
  · cases e
  · split at e
    · cases e; rfl
    · cases e

theorem ensureLib_frame {s : State} {l r} (e : s.ensureLib l = .ok r) :
    r.1.linkMap = s.linkMap ∧ r.1.inited = s.inited := by
  unfold State.ensureLib at e
  obtain ⟨o, h1, h2⟩ := ebind e
  cases o with
  | some x => cases h2; exact ⟨rfl, rfl⟩
  | none =>
    obtain ⟨t, h3, h4⟩ := ebind h2
    cases h4; exact ⟨rfl, rfl⟩

theorem RInv.ensure {s : State} {l r} (h : RInv U s) (hi : s.inited = true) (hl : U l)
    (e : s.ensureLib l = .ok r) : RInv U r.1 := by
  obtain ⟨own, hr, hu, hp⟩ := h.recs hi
  obtain ⟨s', x, e', hr'⟩ := recs_ensure hr l
  rw [e'] at e; cases e
  obtain ⟨f1, f2⟩ := ensureLib_frame e'
  refine ⟨fun _ => ⟨_, hr', ?_, ?_⟩, fun hn => ?_, by rw [f1]; exact h.map⟩
  · intro a ha
    split at ha
    · exact hu a ha
    · rcases List.mem_append.1 ha with ha | ha
      · exact hu a ha
      · rw [List.mem_singleton.1 ha]; exact hl
  · split
    · exact hp
    · rename_i hne
      rw [List.pairwise_append]
      refine ⟨hp, List.pairwise_singleton _ _, fun a ha b hb hc => ?_⟩
      rw [List.mem_singleton.1 hb] at hc
      exact hne ⟨a, ha, hc⟩
  · rw [f2, hi] at hn; cases hn

/-- `s'` is initialised, with the same link map, and its records are as the invariant says. -/
structure RStep (U : Lib → Prop) (s s' : State) : Prop where
  inv : RInv U s'
  inited : s'.inited = true
  map : s'.linkMap = s.linkMap

theorem RStep.refl {s : State} (h : RInv U s) (hi : s.inited = true) : RStep U s s := ⟨h, hi, rfl⟩

theorem RStep.trans {a b c : State} (h : RStep U a b) (h' : RStep U b c) : RStep U a c :=
  ⟨h'.inv, h'.inited, h'.map.trans h.map⟩

theorem RStep.rv {a b : State} {c : State} (h : RStep U a b) (e : rv c = rv b) : RStep U a c := by
  refine ⟨h.inv.frame e, ?_, ?_⟩
  · have := congrArg (·.2.2.2) e
    exact (show c.inited = b.inited from this).trans h.inited
  · have := congrArg (·.2.2.1) e
    exact (show c.linkMap = b.linkMap from this).trans h.map

theorem lookupExported_rv {env : Env} {s : State} {n l r}
    (e : s.lookupExported env n l = .ok r) : rv r.1 = rv s := by
  have hv : ∀ {s : State}, rv (s.isVdso env l).1 = rv s := by
    intro s
    unfold State.isVdso
    split <;> rfl
  have h0 := hv (s := s)
  unfold State.lookupExported at e
  cases hvd : s.isVdso env l with
  | mk s1 b =>
    rw [hvd] at e h0
    cases b with
    | true => cases e; exact h0
    | false =>
      simp only at e
      split at e
      · cases e
      · cases e; exact h0

theorem RInv.ensureStep {s : State} {l r} (h : RInv U s) (hi : s.inited = true) (hl : U l)
    (e : s.ensureLib l = .ok r) : RStep U s r.1 :=
  ⟨h.ensure hi hl e, (ensureLib_frame e).2.trans hi, (ensureLib_frame e).1⟩

theorem prepareLoop_rs {env : Env} {n h} (ls : List Lib) : (∀ l ∈ ls, U l) → ∀ {s r}, RInv U s →
    s.inited = true → prepareLoop env n h ls s = .ok r → RStep U s r.1 := by
  induction ls with
  | nil => intro _ s r hs hi e; cases e; exact .refl hs hi
  | cons l ls ih =>
    intro hl s r hs hi e
    obtain ⟨a, h1, e⟩ := ebind e
    obtain ⟨c, h2, e⟩ := ebind e
    have e2 := (hs.ensureStep hi (hl l (by simp)) h1).rv (lookupExported_rv h2)
    obtain ⟨s2, o⟩ := c
    cases o with
    | some a =>
      obtain ⟨s3, h3, e⟩ := ebind e
      cases e
      exact e2.rv (setInternal_rv h3)
    | none => exact e2.trans (ih (fun l' h' => hl l' (by simp [h'])) e2.inv e2.inited e)

theorem prepareSymbol_rs {env : Env} {s : State} {b r} (hs : RInv U s) (hi : s.inited = true)
    (e : s.prepareSymbol env b = .ok r) : RStep U s r.1 := by
  obtain ⟨x, -, e⟩ := ebind e
  exact prepareLoop_rs _ hs.map hs hi e

theorem insertAtHead_rv {s s' : State} {b h} (e : s.insertAtHead b h = .ok s') : rv s' = rv s := by
  obtain ⟨xb, -, e⟩ := ebind e
  obtain ⟨xh, -, e⟩ := ebind e
  obtain ⟨s1, h1, e⟩ := ebind e
  obtain ⟨t, -, e⟩ := ebind e
  obtain ⟨t', -, e⟩ := ebind e
  cases e
  exact (show rv s1 = rv s from (setInternal_rv h1).trans rfl)

theorem insertAfter_rv {s s' : State} {b h} (e : s.insertAfter b h = .ok s') : rv s' = rv s := by
  obtain ⟨xb, -, e⟩ := ebind e
  obtain ⟨xh, -, e⟩ := ebind e
  obtain ⟨s1, h1, e⟩ := ebind e
  obtain ⟨s2, h2, e⟩ := ebind e
  obtain ⟨xp, -, e⟩ := ebind e
  cases e
  exact (setInternal_rv h2).trans (setInternal_rv h1)

/-- `om` keeps the invariant. -/
structure OmR (U : Lib → Prop) (om : State → Except Fault State) : Prop where
  step : ∀ {s s'}, RInv U s → s.inited = true → om s = .ok s' → RStep U s s'

theorem rewriteOrders_rs {om} (ho : OmR U om) {s : State} {b r} (hs : RInv U s)
    (hi : s.inited = true) (e : rewriteOrders om s b = .ok r) : RStep U s r.1 := by
  obtain ⟨xb, -, e⟩ := ebind e
  obtain ⟨p, -, e⟩ := ebind e
  have e' : ∃ s1, RStep U s s1 ∧ (do
      match ← nameLookup s1.funTab xb.user.name with
      | none =>
        let t ← s1.funTab.addto xb.user.name b (strhash xb.user.name)
        .ok ({ s1 with funTab := t }, (⟨true, true⟩ : RWO))
      | some head =>
        let hp ← s1.bindPriority head
        if hp < p then
          let s ← s1.insertAtHead b head
          .ok (s, ⟨false, true⟩)
        else
          match ← findPos s1 p xb.user.wrapper (s1.binds.length + 1) head with
          | none => .ok (s1, ⟨false, false⟩)
          | some pos =>
            let s ← s1.insertAfter b pos
            .ok (s, ⟨false, false⟩)) = .ok r := by
    split at e
    · obtain ⟨s1, h1, e⟩ := ebind e
      exact ⟨s1, ho.step hs hi h1, e⟩
    · obtain ⟨s1, h1, e⟩ := ebind e
      cases h1
      exact ⟨s, .refl hs hi, e⟩
  clear e
  obtain ⟨s1, hs1, e⟩ := e'
  obtain ⟨o, -, e⟩ := ebind e
  cases o with
  | none =>
    obtain ⟨t, -, e⟩ := ebind e
    cases e
    exact hs1.rv rfl
  | some head =>
    obtain ⟨hp, -, e⟩ := ebind e
    split at e
    · obtain ⟨s2, h2, e⟩ := ebind e
      cases e
      exact hs1.rv (insertAtHead_rv h2)
    · obtain ⟨o, -, e⟩ := ebind e
      cases o with
      | none => cases e; exact hs1
      | some pos =>
        obtain ⟨s2, h2, e⟩ := ebind e
        cases e
        exact hs1.rv (insertAfter_rv h2)

theorem processBindings_rs {om} (ho : OmR U om) {env : Env} {n} (bs : List BId) :
    ∀ {s nb nf r}, RInv U s → s.inited = true → processBindings env om n bs s nb nf = .ok r →
    RStep U s r.1 := by
  induction bs with
  | nil => intro s nb nf r hs hi e; cases e; exact .refl hs hi
  | cons b bs ih =>
    intro s nb nf r hs hi e
    obtain ⟨xb, -, e⟩ := ebind e
    obtain ⟨⟨s1, rr⟩, h1, e⟩ := ebind e
    have e1 := rewriteOrders_rs ho hs hi h1
    have e' : ∃ s2 nb2 nf2, RStep U s s2 ∧
        processBindings env om n bs s2 nb2 nf2 = .ok r := by
      have key : ∀ {s2 nf2}, (if rr.binding = true then do
            let nb ← addNew env n nb xb.user.name b
            processBindings env om n bs s2 nb nf2
          else do
            let nb ← Except.ok nb
            processBindings env om n bs s2 nb nf2) = .ok r →
          ∃ nb2, processBindings env om n bs s2 nb2 nf2 = .ok r := by
        intro s2 nf2 e
        split at e
        · obtain ⟨nb2, -, e⟩ := ebind e; exact ⟨nb2, e⟩
        · obtain ⟨nb2, -, e⟩ := ebind e; exact ⟨nb2, e⟩
      dsimp only at e
      split at e
      · obtain ⟨⟨s3, ok⟩, h3, e⟩ := ebind e
        have h3 := e1.trans (prepareSymbol_rs e1.inv e1.inited h3)
        dsimp only at e
        split at e
        · obtain ⟨x, hx, e⟩ := ebind e
          cases hx
          obtain ⟨nb2, e⟩ := key e
          exact ⟨_, _, _, h3, e⟩
        · obtain ⟨t, -, e⟩ := ebind e
          obtain ⟨x, hx, e⟩ := ebind e
          cases hx
          obtain ⟨nb2, e⟩ := key e
          exact ⟨{ s3 with notFound := t }, _, _, h3.rv rfl, e⟩
      · obtain ⟨x, hx, e⟩ := ebind e
        cases hx
        obtain ⟨nb2, e⟩ := key e
        exact ⟨_, _, _, e1, e⟩
    clear e
    obtain ⟨s2, nb2, nf2, e2, e⟩ := e'
    exact e2.trans (ih e2.inv e2.inited e)

theorem unprotect_rv {env : Env} (rs : List (Addr × BitVec 64)) : ∀ s : State,
    rv (rs.foldl (State.unprotect env) s) = rv s := by
  induction rs with
  | nil => intro s; rfl
  | cons r rs ih =>
    intro s
    rw [List.foldl_cons, ih]
    unfold State.unprotect
    split <;> rfl

theorem writeRelocs_rv {t : HTable Name BId} {base} (rl : List (Addr × Name)) :
    ∀ {s s' : State}, writeRelocs t base rl s = .ok s' → rv s' = rv s := by
  induction rl with
  | nil => intro s s' e; cases e; rfl
  | cons q rl ih =>
    intro s s' e
    obtain ⟨off, name⟩ := q
    obtain ⟨o, -, e⟩ := ebind e
    cases o with
    | none => exact ih e
    | some b =>
      obtain ⟨x, -, e⟩ := ebind e
      obtain ⟨s1, h1, e⟩ := ebind e
      rw [ih e]
      unfold State.write at h1
      split at h1
      · cases h1; rfl
      · cases h1

theorem modify_maps {L : List LibRec} {i : Nat} {f : LibRec → LibRec}
    (hf : ∀ x, (f x).map = x.map) : (L.modify i f).map (·.map) = L.map (·.map) := by
  apply List.ext_getElem?
  intro j
  simp only [List.getElem?_map, List.getElem?_modify]
  cases L[j]? with
  | none => rfl
  | some x => by_cases e : i = j <;> simp [e, hf]

theorem updateLib_rs {env : Env} {t : HTable Name BId} {s s' : State} {l n} (hs : RInv U s)
    (hi : s.inited = true) (hl : U l) (e : s.updateLib env t l n = .ok s') : RStep U s s' := by
  obtain ⟨⟨s1, r⟩, h1, e⟩ := ebind e
  have e1 : RStep U s s1 := hs.ensureStep hi hl h1
  obtain ⟨acc, -, e⟩ := ebind e
  dsimp only at e
  split at e
  · cases e; exact e1
  · split at e
    · cases e
    · split at e
      · cases e; exact e1
      · have tail : ∀ {s2 : State}, RStep U s s2 → (do
            match ← Elf.relocs l.img with
            | none => Except.ok s2
            | some rl =>
              let s ← writeRelocs t l.addr rl s2
              .ok { s with libs := s.libs.modify r (fun x => { x with gen := s.gen }) }) = .ok s' →
            RStep U s s' := by
          intro s2 e2 e
          obtain ⟨o, -, e⟩ := ebind e
          cases o with
          | none => cases e; exact e2
          | some rl =>
            obtain ⟨s4, h4, e⟩ := ebind e
            cases e
            refine (e2.rv (writeRelocs_rv _ h4)).rv ?_
            unfold rv
            rw [modify_maps (f := fun x => { x with gen := s4.gen }) (fun _ => rfl)]
        split at e
        · obtain ⟨s2, h2, e⟩ := ebind e
          cases h2
          exact tail e1 e
        · obtain ⟨s3, h3, e⟩ := ebind e
          obtain ⟨s2, h2, e⟩ := ebind e
          cases h2
          refine tail (RStep.rv (b := s3) ?_ ?_) e
          · unfold State.markGotWritable at h3
            split at h3
            · cases h3
            · cases h3; exact e1.rv (unprotect_rv _ _)
          · unfold rv
            rw [modify_maps (f := fun x => { x with writable := true }) (fun _ => rfl)]

theorem updateLibs_rs {env : Env} {t : HTable Name BId} (ls : List Lib) : (∀ l ∈ ls, U l) →
    ∀ {s s' : State}, RInv U s → s.inited = true → updateLibs env t ls s = .ok s' →
    RStep U s s' := by
  induction ls with
  | nil => intro _ s s' hs hi e; cases e; exact .refl hs hi
  | cons l ls ih =>
    intro hl s s' hs hi e
    obtain ⟨s1, h1, e⟩ := ebind e
    have h := updateLib_rs hs hi (hl l (by simp)) h1
    exact h.trans (ih (fun l' h' => hl l' (by simp [h'])) h.inv h.inited e)

theorem addBindings_rv (tool : Nat) (us : List UBinding) : ∀ s : State,
    rv (addBindings tool us s) = rv s := by
  induction us with
  | nil => intro s; rfl
  | cons u us ih => intro s; rw [addBindings, ih]; rfl

theorem setHandles_rv (us : List UBinding) : ∀ s : State,
    rv (us.foldl (fun s u => s.setHandle u.handle none) s) = rv s := by
  induction us with
  | nil => intro s; rfl
  | cons u us ih => intro s; rw [List.foldl_cons, ih]; rfl

theorem wrapCore_rs {om} (ho : OmR U om) {env : Env} {tbl tool} {s : State} {r} (hs : RInv U s)
    (hi : s.inited = true) (e : wrapCore env om tbl tool s = .ok r) : RStep U s r.1 := by
  obtain ⟨⟨ts, tid⟩, -, e⟩ := ebind e
  obtain ⟨⟨s1, nb, nf⟩, h1, e⟩ := ebind e
  have e0 : RStep U s (addBindings tid tbl
      { (List.foldl (fun s u => s.setHandle u.handle none) s tbl) with
          tools := ts
          gen := (List.foldl (fun s u => s.setHandle u.handle none) s tbl).gen + 1 }) :=
    (RStep.refl hs hi).rv ((addBindings_rv tid tbl _).trans (setHandles_rv tbl s))
  have e1 := e0.trans (processBindings_rs ho _ e0.inv e0.inited h1)
  cases nb with
  | none =>
    obtain ⟨s2, h2, e⟩ := ebind e
    cases h2; cases e; exact e1
  | some t =>
    obtain ⟨s2, h2, e⟩ := ebind e
    cases e
    exact e1.trans (updateLibs_rs _ e1.inv.map e1.inv e1.inited h2)

theorem onMainReal_rs (env : Env) : OmR U (onMainReal env) := by
  refine ⟨?_⟩
  intro s s' hs hi e
  unfold onMainReal at e
  split at e
  · cases e; exact .refl hs hi
  · obtain ⟨⟨s1, c1⟩, h1, e⟩ := ebind e
    obtain ⟨⟨s2, c2⟩, h2, e⟩ := ebind e
    cases e
    have hid : OmR U (fun s => .ok s) := ⟨by intro s s' h1 h2 e; cases e; exact .refl h1 h2⟩
    have e0 : RStep U s { s with mainWrapped := true } := (RStep.refl hs hi).rv rfl
    have e1 := e0.trans (wrapCore_rs hid e0.inv e0.inited h1)
    exact e1.trans (wrapCore_rs hid e1.inv e1.inited h2)

theorem gotchaInit_rs {env : Env} (hp : 48 ≤ env.page) {s s' : State} (hs : RInv U s)
    (e : gotchaInit env s = .ok s') : RStep U s s' := by
  unfold gotchaInit at e
  split at e
  · rename_i hi; cases e; exact .refl hs hi
  · rename_i hi
    obtain ⟨lt, hlt, e⟩ := ebind e
    obtain ⟨ft, -, e⟩ := ebind e
    obtain ⟨nt, -, e⟩ := ebind e
    obtain ⟨⟨s1, c⟩, h1, e⟩ := ebind e
    cases e
    have hl := hs.none (by simpa using hi)
    have h0 : RStep U s { s with inited := true, libTab := lt, funTab := ft, notFound := nt } := by
      refine ⟨⟨fun _ => ⟨[], recs_create hp (by omega) hlt rfl hl, by simp, .nil⟩, ?_, hs.map⟩,
        rfl, rfl⟩
      intro h; cases h
    exact h0.trans (wrapCore_rs (onMainReal_rs env) h0.inv h0.inited h1)

theorem perBinding_rs {env : Env} {k d} {s : State} {r} (hs : RInv U s) (hi : s.inited = true)
    (h : perBinding env k d s = .ok r) : RStep U s r.1 := by
  unfold perBinding at h
  split at h
  · obtain ⟨b', -, h⟩ := ebind h
    obtain ⟨⟨s2, ok⟩, h2, h⟩ := ebind h
    have e2 := prepareSymbol_rs hs hi h2
    dsimp only at h
    split at h
    · obtain ⟨t, -, h⟩ := ebind h
      cases h; exact e2.rv rfl
    · cases h; exact e2
  · cases h

theorem foreachEntry_rs {env : Env} : ∀ fuel cur {s s'}, RInv U s → s.inited = true →
    foreachEntry State.notFound (perBinding env) fuel cur s = .ok s' → RStep U s s' := by
  intro fuel
  induction fuel with
  | zero =>
    intro cur s s' hs hi e
    cases cur with
    | none => cases e; exact .refl hs hi
    | some i => simp [foreachEntry] at e
  | succ fuel ih =>
    intro cur s s' hs hi e
    cases cur with
    | none => cases e; exact .refl hs hi
    | some i =>
      rw [foreachEntry] at e
      split at e
      · cases e
      · split at e
        · cases e
        · rename_i h1
          cases e
          exact perBinding_rs hs hi h1
        · rename_i h1
          have h2 := perBinding_rs hs hi h1
          split at e
          · cases e
          · exact h2.trans (ih _ h2.inv h2.inited e)

theorem afterDlopen_rs {env : Env} {s s' : State} (hs : RInv U s) (hi : s.inited = true)
    (e : s.afterDlopen env = .ok s') : RStep U s s' := by
  obtain ⟨s1, h1, e⟩ := ebind e
  have h := foreachEntry_rs _ _ hs hi h1
  exact h.trans (updateLibs_rs _ h.inv.map h.inv h.inited e)

/-- The objects an event loads. -/
def loadsOf : Op → List Lib
  | .dlopen ld => ld.libs
  | .load ld => ld.libs
  | _ => []

theorem load_rinv {s : State} {ld : Load} (hs : RInv U s) (hl : ∀ l ∈ ld.libs, U l) :
    RInv U (s.load ld) := by
  refine ⟨fun hi => ?_, hs.none, fun l h => ?_⟩
  · obtain ⟨own, r, h1, h2⟩ := hs.recs hi
    exact ⟨own, ⟨r.repr, r.recs⟩, h1, h2⟩
  · rcases List.mem_append.1 h with h | h
    · exact hs.map l h
    · exact hl l h

theorem stepOp_rinv {env : Env} (hp : 48 ≤ env.page) {op : Op} {s : State} {r} (hs : RInv U s)
    (hl : ∀ l ∈ loadsOf op, U l) (e : stepOp env op s = .ok r) : RInv U r.1 := by
  cases op with
  | wrap tbl tool =>
    obtain ⟨⟨s1, c⟩, h1, e⟩ := ebind e
    cases e
    obtain ⟨s0, h0, h1⟩ := ebind h1
    have h := gotchaInit_rs hp hs h0
    exact (wrapCore_rs (onMainReal_rs env) h.inv h.inited h1).inv
  | setPriority tool v =>
    obtain ⟨s1, h1, e⟩ := ebind e
    cases e
    obtain ⟨s0, h0, h1⟩ := ebind h1
    obtain ⟨ts, -, h1⟩ := ebind h1
    cases h1
    exact (gotchaInit_rs hp hs h0).inv.frame rfl
  | getPriority tool =>
    obtain ⟨⟨s1, v⟩, h1, e⟩ := ebind e
    cases e
    obtain ⟨s0, h0, h1⟩ := ebind h1
    obtain ⟨ts, -, h1⟩ := ebind h1
    cases h1
    exact (gotchaInit_rs hp hs h0).inv
  | setFilter f => cases e; exact hs.frame rfl
  | dlopen ld =>
    rw [stepOp] at e
    split at e
    · rename_i hi
      obtain ⟨s1, h1, e⟩ := ebind e
      cases e
      obtain ⟨w, -, h1⟩ := ebind h1
      exact (afterDlopen_rs (load_rinv hs hl) hi h1).inv
    · cases e; exact load_rinv hs hl
  | load ld => cases e; exact load_rinv hs hl
  | unload dead =>
    cases e
    refine ⟨fun hi => ?_, hs.none, fun l h => hs.map l (List.mem_filter.1 h).1⟩
    obtain ⟨own, r, h1, h2⟩ := hs.recs hi
    exact ⟨own, ⟨r.repr, r.recs⟩, h1, h2⟩

theorem run_rinv {env : Env} (hp : 48 ≤ env.page) (ops : List Op) : ∀ {s : State} {r}, RInv U s →
    (∀ op ∈ ops, ∀ l ∈ loadsOf op, U l) → run env ops s = .ok r → RInv U r.1 := by
  induction ops with
  | nil => intro s r hs _ e; cases e; exact hs
  | cons op ops ih =>
    intro s r hs hl e
    obtain ⟨⟨s1, o⟩, h1, e⟩ := ebind e
    obtain ⟨⟨s2, os⟩, h2, e⟩ := ebind e
    cases e
    exact ih (r := (s2, os)) (stepOp_rinv hp hs (hl op (by simp)) h1)
      (fun o h => hl o (by simp [h])) h2

end Gotcha
