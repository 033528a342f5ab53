import Verif.Model.Core
import Verif.Spec.Stack
import Verif.Proof.TabMap
/-
Library records, symbol resolution and GOT rewriting (the part of the engine that does not look at
the stacks).
-/
namespace Gotcha
open HTable
open Spec (exportsAt firstDef insertBefore Frame)

/-- The relocations of an object that GOTCHA considers, as (offset, name). -/
def rlOf (l : Lib) : List (Addr × Name) :=
  match Elf.relocs l.img with
  | .ok (some r) => r
  | _ => []

/-- Assumptions about all objects that are ever loaded into the process (`U`), and about the
environment. -/
structure World (env : Env) (U : Lib → Prop) : Prop where
  page48 : 48 ≤ env.page
  page64 : BitVec.ofNat 64 env.page ≠ 0
  ident : ∀ {l l'}, U l → U l' → linkMapHash l = linkMapHash l' → l = l'
  named : ∀ {l}, U l → l.name.isSome
  exp : ∀ {l}, U l → ∀ n, ∃ r, Elf.exported l.img l.addr n = .ok r
  rel : ∀ {l}, U l → ∃ r, Elf.relocs l.img = .ok r

variable {env : Env} {U : Lib → Prop}

noncomputable instance : DecidableEq Lib := Classical.decEq Lib

/-- The table of library records stores exactly the records `lm` tells. -/
def LibTab (U : Lib → Prop) (t : HTable Addr Nat) (lm : Lib → Option Nat) : Prop :=
  ∃ L items, Repr t L items ∧
    (∀ it ∈ items, ∃ l, U l ∧ it.1 = linkMapHash l ∧ it.2.1 = l.lm) ∧
    (∀ l d, lm l = some d ↔ U l ∧ (linkMapHash l, l.lm, d) ∈ items) ∧
    (items.map (·.1)).Nodup

theorem create_lib (U : Lib → Prop) {page initial : Nat} (hp : 48 ≤ page) (hi : 0 < initial) :
    ∃ t : HTable Addr Nat, create page initial = .ok t ∧ LibTab U t (fun _ => none) := by
  have hpp : page / 48 ≠ 0 := by omega
  unfold create entrySize
  simp only [hpp, if_false]
  refine ⟨_, rfl, [], [], blank_repr ?_, by simp, by simp, by simp⟩
  split <;> omega

theorem lookup_lib (w : World env U) {t lm} (h : LibTab U t lm) {l : Lib} (hl : U l) :
    t.lookup (linkMapHash l) (linkMapEq l.lm) = .ok (lm l) := by
  obtain ⟨L, items, r, hk, hm, -⟩ := h
  rcases lookup_repr r (linkMapHash l) (linkMapEq l.lm) with ⟨it, h1, h2, h3⟩ | ⟨h1, h2⟩
  · obtain ⟨l', hl', e1, e2⟩ := hk it h2
    have e : l' = l := w.ident hl' hl (e1.symm.trans h3.1)
    subst e
    rw [h1, (hm l' it.2.2).2 ⟨hl', by rw [← e1, ← e2]; exact h2⟩]
  · rw [h1]
    cases e : lm l with
    | none => rfl
    | some d =>
      exact absurd ⟨rfl, by simp [linkMapEq]⟩ (h2 _ ((hm l d).1 e).2)

theorem addto_lib (w : World env U) {t lm} (h : LibTab U t lm) {l : Lib} (hl : U l) (d : Nat)
    (hn : lm l = none) : ∃ t', t.addto l.lm d (linkMapHash l) = .ok t' ∧
      LibTab U t' (upd lm l (some d)) := by
  obtain ⟨L, items, r, hk, hm, hu⟩ := h
  obtain ⟨t', L', items', h1, r', hp, -, -⟩ := addto_repr r l.lm d (linkMapHash l)
  refine ⟨t', h1, L', _, r', ?_, ?_, ?_⟩
  · intro it hit
    rcases List.mem_cons.1 hit with rfl | h
    · exact ⟨l, hl, rfl, rfl⟩
    · exact hk it (hp.mem_iff.1 h)
  · intro l' d'
    rw [List.mem_cons, hp.mem_iff]
    by_cases e : l' = l
    · subst e
      rw [upd_self]
      constructor
      · intro h; cases h; exact ⟨hl, Or.inl rfl⟩
      · rintro ⟨-, h | h⟩
        · cases h; rfl
        · rw [(hm l' d').2 ⟨hl, h⟩] at hn; cases hn
    · rw [upd_ne _ _ e, hm]
      constructor
      · rintro ⟨h1, h2⟩; exact ⟨h1, Or.inr h2⟩
      · rintro ⟨h1, h2 | h2⟩
        · exact absurd (w.ident h1 hl (congrArg Prod.fst h2)) e
        · exact ⟨h1, h2⟩
  · rw [List.map_cons, List.nodup_cons]
    refine ⟨?_, ((hp.map _).nodup_iff).2 hu⟩
    intro hc
    obtain ⟨it, hit, e1⟩ := List.mem_map.1 hc
    obtain ⟨l', hl', e2, e3⟩ := hk it (hp.mem_iff.1 hit)
    have e : l' = l := w.ident hl' hl (e2.symm.trans e1)
    subst e
    rw [(hm l' it.2.2).2 ⟨hl', by rw [← e2, ← e3]; exact hp.mem_iff.1 hit⟩] at hn
    cases hn

/-- Taking a record out. -/
theorem remove_lib (w : World env U) {t lm} (h : LibTab U t lm) {l : Lib} (hl : U l) :
    ∃ t' b, t.removefrom (linkMapHash l) (linkMapEq l.lm) = .ok (t', b) ∧
      LibTab U t' (upd lm l none) := by
  obtain ⟨L, items, r, hk, hm, hu⟩ := h
  rcases removefrom_repr r (linkMapHash l) (linkMapEq l.lm) with
    ⟨i, it, t', A, B, IA, IB, h1, -, h3, -, h5, h6, -⟩ | ⟨h1, h2⟩
  · subst h3
    obtain ⟨l', hl', e1, e2⟩ := hk it (by simp)
    have e : l' = l := w.ident hl' hl (e1.symm.trans h5.1)
    subst e
    have hperm : (IA ++ it :: IB).Perm (it :: (IA ++ IB)) := List.perm_middle
    have hu' := ((hperm.map _).nodup_iff).1 hu
    rw [List.map_cons, List.nodup_cons] at hu'
    refine ⟨t', true, h1, A ++ B, IA ++ IB, h6, ?_, ?_, hu'.2⟩
    · intro x hx
      exact hk x (hperm.mem_iff.2 (List.mem_cons_of_mem _ hx))
    · intro x d
      by_cases ex : x = l'
      · subst ex
        rw [upd_self]
        constructor
        · intro hc; cases hc
        · rintro ⟨-, hc⟩
          exact absurd (List.mem_map.2 ⟨_, hc, e1.symm⟩) hu'.1
      · rw [upd_ne _ _ ex, hm, hperm.mem_iff, List.mem_cons]
        constructor
        · rintro ⟨g1, g2 | g2⟩
          · exact absurd (w.ident g1 hl' (by rw [← e1, ← g2])) ex
          · exact ⟨g1, g2⟩
        · rintro ⟨g1, g2⟩; exact ⟨g1, Or.inr g2⟩
  · refine ⟨t, false, h1, L, items, r, hk, ?_, hu⟩
    intro x d
    by_cases ex : x = l
    · subst ex
      rw [upd_self]
      constructor
      · intro hc; cases hc
      · rintro ⟨-, hc⟩
        exact absurd ⟨rfl, by simp [linkMapEq]⟩ (h2 _ hc)
    · rw [upd_ne _ _ ex]; exact hm x d

structure LibInv (U : Lib → Prop) (seen : Lib → Prop) (t : HTable Addr Nat) (libs : List LibRec)
    (lm : Lib → Option Nat) : Prop where
  tab : LibTab U t lm
  bound : ∀ {a r}, lm a = some r → r < libs.length
  inj : ∀ {a a' r}, lm a = some r → lm a' = some r → a = a'
  seen : ∀ {a r}, lm a = some r → seen a
  own : ∀ {a r x}, lm a = some r → libs[r]? = some x → x.map = a.lm

theorem LibInv.known {seen : Lib → Prop} {t : HTable Addr Nat} {libs : List LibRec}
    {lm : Lib → Option Nat} (h : LibInv U seen t libs lm) {a : Lib} {r : Nat} (e : lm a = some r) :
    U a := by
  obtain ⟨L, items, -, -, hm, -⟩ := h.tab
  exact ((hm a r).1 e).1

def recAt (libs : List LibRec) (lm : Lib → Option Nat) (a : Lib) : Option LibRec :=
  (lm a).bind (libs[·]?)

/-- The records only gained fresh entries. -/
def RecExt (libs : List LibRec) (lm : Lib → Option Nat) (libs' : List LibRec)
    (lm' : Lib → Option Nat) : Prop :=
  ∀ a, recAt libs' lm' a = recAt libs lm a ∨
    (recAt libs lm a = none ∧ recAt libs' lm' a = some ⟨0, false, a.lm⟩)

theorem RecExt.refl (libs : List LibRec) (lm : Lib → Option Nat) : RecExt libs lm libs lm :=
  fun _ => Or.inl rfl

theorem RecExt.trans {libs lm libs' lm' libs'' lm''} (h1 : RecExt libs lm libs' lm')
    (h2 : RecExt libs' lm' libs'' lm'') : RecExt libs lm libs'' lm'' := by
  intro a
  rcases h1 a with e1 | ⟨e1, e2⟩
  · rcases h2 a with e3 | ⟨e3, e4⟩
    · left; rw [e3, e1]
    · right; rw [← e1]; exact ⟨e3, e4⟩
  · rcases h2 a with e3 | ⟨e3, e4⟩
    · right; rw [e3]; exact ⟨e1, e2⟩
    · rw [e2] at e3; cases e3

theorem recAt_modify {seen t libs lm} (h : LibInv U seen t libs lm) {a : Lib} {r : Nat}
    (hr : lm a = some r) (f : LibRec → LibRec) (a' : Lib) :
    recAt (libs.modify r f) lm a' =
      if a' = a then (recAt libs lm a).map f else recAt libs lm a' := by
  unfold recAt
  by_cases e : a' = a
  · subst e
    simp only [hr, Option.bind_some, if_true]
    simp
  · rw [if_neg e]
    cases h' : lm a' with
    | none => rfl
    | some r' =>
      have : r ≠ r' := by
        intro hh; subst hh; exact e (h.inj h' hr)
      simp [this]

theorem LibInv.modify {seen t libs lm} (h : LibInv U seen t libs lm) (r : Nat)
    (f : LibRec → LibRec) (hf : ∀ x, (f x).map = x.map) : LibInv U seen t (libs.modify r f) lm := by
  refine ⟨h.tab, fun hr => by simpa using h.bound hr, h.inj, h.seen, ?_⟩
  intro a r' x hr hx
  rw [List.getElem?_modify] at hx
  cases hy : libs[r']? with
  | none => simp [hy] at hx
  | some y =>
    simp [hy] at hx
    rw [← hx]
    split
    · rw [hf]; exact h.own hr hy
    · exact h.own hr hy

theorem ensureLib_spec (w : World env U) {seen} {s : State} {lm}
    (h : LibInv U seen s.libTab s.libs lm) {l : Lib} (hl : U l) (hs : seen l) :
    ∃ t libs' lm' r rec, s.ensureLib l = .ok ({ s with libTab := t, libs := libs' }, r) ∧
      LibInv U seen t libs' lm' ∧ lm' l = some r ∧ libs'[r]? = some rec ∧
      recAt libs' lm' l = some rec ∧ RecExt s.libs lm libs' lm' ∧
      (∀ a, a ≠ l → recAt libs' lm' a = recAt s.libs lm a) := by
  have hlook := lookup_lib w h.tab hl
  unfold State.ensureLib
  rw [hlook]
  cases hm : lm l with
  | some r =>
    have hb := h.bound hm
    refine ⟨s.libTab, s.libs, lm, r, s.libs[r], rfl, h, hm, List.getElem?_eq_getElem hb, ?_,
      RecExt.refl _ _, fun _ _ => rfl⟩
    simp [recAt, hm]
  | none =>
    obtain ⟨t', ht', hmap⟩ := addto_lib w h.tab hl s.libs.length hm
    have hrec : recAt (s.libs ++ [⟨0, false, l.lm⟩])
        (upd lm l (some s.libs.length)) l = some ⟨0, false, l.lm⟩ := by
      simp [recAt]
    have hoth : ∀ a, a ≠ l → recAt (s.libs ++ [⟨0, false, l.lm⟩])
        (upd lm l (some s.libs.length)) a = recAt s.libs lm a := by
      intro a e
      unfold recAt
      rw [upd_ne _ _ e]
      cases h' : lm a with
      | none => rfl
      | some r => simp [List.getElem?_append_left (h.bound h')]
    refine ⟨t', s.libs ++ [⟨0, false, l.lm⟩],
      upd lm l (some s.libs.length), s.libs.length, ⟨0, false, l.lm⟩, ?_,
      ⟨hmap, ?_, ?_, ?_, ?_⟩, by simp, by simp, hrec, ?_, hoth⟩
    · simp only [bind, Except.bind]
      rw [ht']
    · intro a r hr
      by_cases e : a = l
      · subst e; simp at hr; simp [← hr]
      · rw [upd_ne _ _ e] at hr
        have := h.bound hr
        simp; omega
    · intro a a' r hr hr'
      by_cases e : a = l
      · subst e
        by_cases e' : a' = a
        · exact e'.symm
        · rw [upd_ne _ _ e'] at hr'
          simp at hr
          have := h.bound hr'; omega
      · rw [upd_ne _ _ e] at hr
        by_cases e' : a' = l
        · subst e'
          simp at hr'
          have := h.bound hr; omega
        · rw [upd_ne _ _ e'] at hr'
          exact h.inj hr hr'
    · intro a r hr
      by_cases e : a = l
      · rw [e]; exact hs
      · rw [upd_ne _ _ e] at hr; exact h.seen hr
    · intro a r x hr hx
      by_cases e : a = l
      · subst e
        simp at hr
        subst hr
        simp at hx
        rw [← hx]
      · rw [upd_ne _ _ e] at hr
        rw [List.getElem?_append_left (h.bound hr)] at hx
        exact h.own hr hx
    · intro a
      by_cases e : a = l
      · subst e
        right
        exact ⟨by simp [recAt, hm], hrec⟩
      · exact Or.inl (hoth a e)

/-! ### symbol resolution -/

/-- The vdso is (or will be) taken to be `v`. -/
def VdOk (env : Env) (v : Option Addr) (vd : Option (Option Addr)) (linkMap : List Lib) : Prop :=
  vd = some v ∨ (vd = none ∧ env.vdsoOf linkMap = v)

theorem lookupExported_spec (w : World env U) {s : State} {l : Lib} (hl : U l) (f : Name)
    {v : Option Addr} (hv : VdOk env v s.vdso s.linkMap) :
    s.lookupExported env f l =
      .ok ({ s with vdso := some v }, if v = some l.lm then none else exportsAt l f) := by
  obtain ⟨r, hr⟩ := w.exp hl f
  have he : exportsAt l f = r := by simp [exportsAt, hr]
  have hvd : s.isVdso env l = ({ s with vdso := some v }, decide (v = some l.lm)) := by
    unfold State.isVdso
    rcases hv with hv | ⟨hv, rfl⟩
    · rw [hv]
      have : s = { s with vdso := some v } := by rw [← hv]
      simp only
      rw [← this]
    · rw [hv]
  unfold State.lookupExported
  rw [hvd]
  by_cases hc : v = some l.lm
  · simp [hc]
  · simp [hc, hr, he]

theorem prepareLoop_spec (w : World env U) {seen} (f : Name) (h : HAddr) {v : Option Addr}
    (ls : List Lib) (hls : ∀ l ∈ ls, U l ∧ seen l) :
    ∀ {s : State} {lm}, LibInv U seen s.libTab s.libs lm → VdOk env v s.vdso s.linkMap →
      (∃ b, s.handles h = some b ∧ b < s.binds.length) →
      ∃ t libs' lm' vd, LibInv U seen t libs' lm' ∧ RecExt s.libs lm libs' lm' ∧
        VdOk env v vd s.linkMap ∧ (ls ≠ [] → vd = some v) ∧ (s.vdso ≠ none → vd = s.vdso) ∧
        ((∃ a b, firstDef v ls f = some a ∧ s.handles h = some b ∧ b < s.binds.length ∧
          prepareLoop env f h ls s = .ok ({ s with
            libTab := t
            libs := libs'
            vdso := vd
            binds := s.binds.modify b (fun x => { x with wrappee := some a }) }, true)) ∨
         (firstDef v ls f = none ∧
          prepareLoop env f h ls s =
            .ok ({ s with libTab := t, libs := libs', vdso := vd }, false))) := by
  induction ls with
  | nil =>
    intro s lm hL hv hh
    exact ⟨s.libTab, s.libs, lm, s.vdso, hL, RecExt.refl _ _, hv, by simp, fun _ => rfl,
      Or.inr ⟨rfl, rfl⟩⟩
  | cons l ls ih =>
    intro s lm hL hv hh
    obtain ⟨hlU, hls'⟩ := hls l (List.mem_cons_self ..)
    obtain ⟨t1, libs1, lm1, r, rec, he, hL1, hlm1, -, -, hext1, -⟩ := ensureLib_spec w hL hlU hls'
    have hlx := lookupExported_spec w (s := { s with libTab := t1, libs := libs1 }) hlU f hv
    have hv1 : VdOk env v (some v) s.linkMap := Or.inl rfl
    have hv2 : s.vdso ≠ none → some v = s.vdso := by
      intro hne
      rcases hv with hv | ⟨hv, -⟩
      · exact hv.symm
      · exact absurd hv hne
    cases hr : (if v = some l.lm then none else exportsAt l f) with
    | some a =>
      obtain ⟨b, hb1, hb2⟩ := hh
      refine ⟨t1, libs1, lm1, some v, hL1, hext1, hv1, fun _ => rfl, hv2, Or.inl
        ⟨a, b, by simp only [firstDef, List.findSome?_cons, hr], hb1, hb2, ?_⟩⟩
      unfold prepareLoop
      simp only [he, bind, Except.bind, hlx, hr, State.setInternal, hb1, hb2, if_true]
    | none =>
      obtain ⟨t, libs', lm', vd, g1, g2, g3, g4, g5, g6⟩ :=
        ih (fun l hl => hls l (List.mem_cons_of_mem _ hl))
          (s := { s with libTab := t1, libs := libs1, vdso := some v }) hL1 hv1 hh
      refine ⟨t, libs', lm', vd, g1, hext1.trans g2, g3, fun _ => g5 (by simp),
        fun hne => by rw [g5 (by simp)]; exact hv2 hne, ?_⟩
      have hfd : firstDef v (l :: ls) f = firstDef v ls f := by
        simp only [firstDef, List.findSome?_cons, hr]
      rw [hfd]
      rcases g6 with ⟨a, b, h1, h2, h3, h4⟩ | ⟨h1, h2⟩
      · left
        refine ⟨a, b, h1, h2, h3, ?_⟩
        rw [prepareLoop]
        simp only [he, bind, Except.bind, hlx, hr]
        exact h4
      · right
        refine ⟨h1, ?_⟩
        rw [prepareLoop]
        simp only [he, bind, Except.bind, hlx, hr]
        exact h2

/-! ### rewriting one library -/

/-- The memory after writing, for every relocation whose name `w` knows, the value it gives. -/
def patch (w : Name → Option Addr) (base : Addr) : List (Addr × Name) → (Addr → Addr) → Addr → Addr
  | [], mem => mem
  | (off, f) :: rest, mem =>
    match w f with
    | none => patch w base rest mem
    | some v => patch w base rest (upd mem (base + off) v)

/-- Wrapper address of a binding. -/
def wrapperOf (binds : List IBinding) (b : BId) : Option Addr := (binds[b]?).map (·.user.wrapper)

def wOf (binds : List IBinding) (m : Name → Option BId) (f : Name) : Option Addr :=
  (m f).bind (wrapperOf binds)

theorem name_eq {m : Name → Option BId} {n : Name} : ∀ k', (m k').isSome →
    ((strhash k' = strhash n ∧ decide (k' = n) = true) ↔ k' = n) := by
  intro k' _
  simp only [decide_eq_true_eq]
  constructor
  · exact fun h => h.2
  · intro h; exact ⟨by rw [h], h⟩

theorem nameLookup_tab {t : HTable Name BId} {m} (h : TabMap strhash t m) (n : Name) :
    nameLookup t n = .ok (m n) :=
  lookup_tab h name_eq

theorem writeRelocs_spec {t : HTable Name BId} {m} (ht : TabMap strhash t m) (base : Addr)
    (rl : List (Addr × Name)) :
    ∀ {s : State}, (∀ f b, m f = some b → b < s.binds.length) →
      (∀ p ∈ rl, s.wr (base + p.1) = true) →
      writeRelocs t base rl s =
        .ok { s with mem := patch (wOf s.binds m) base rl s.mem } := by
  induction rl with
  | nil => intro s _ _; rfl
  | cons p rl ih =>
    intro s hb hw
    obtain ⟨off, f⟩ := p
    rw [writeRelocs, nameLookup_tab ht]
    cases hm : m f with
    | none =>
      simp only [bind, Except.bind, patch, wOf, hm, Option.bind_none]
      exact ih hb (fun p hp => hw p (List.mem_cons_of_mem _ hp))
    | some b =>
      have hlt := hb f b hm
      have hget := List.getElem?_eq_getElem hlt
      have hw0 := hw (off, f) (List.mem_cons_self ..)
      simp only at hw0
      simp only [bind, Except.bind, State.bind, hget, State.write, hw0, if_true, patch, wOf, hm,
        Option.bind_some, wrapperOf, Option.map_some]
      have := ih (s := { s with mem := upd s.mem (base + off) s.binds[b].user.wrapper }) hb
        (fun p hp => hw p (List.mem_cons_of_mem _ hp))
      exact this

/-- The address ranges `mark_got_writable` unprotects for an object that only matches itself. -/
def marksOf (env : Env) (l : Lib) : List (Addr × BitVec 64) :=
  match Got.markCalls (BitVec.ofNat 64 env.page) [l] l with
  | .ok rs => rs
  | .error _ => []

/-- One of these calls covers the address and succeeds. -/
def markedBy (env : Env) (l : Lib) (a : Addr) : Prop := ∃ r ∈ marksOf env l,
  env.mprotect r = true ∧ r.1.toNat ≤ a.toNat ∧ a.toNat < r.1.toNat + r.2.toNat

/-- No two loaded objects have both the same name and the same load address. -/
def Placed (objs : List Lib) : Prop :=
  ∀ l ∈ objs, ∀ o ∈ objs, l.name = o.name → l.addr = o.addr → o = l

theorem relroBoundary_eq {objs : List Lib} {l : Lib} (hpl : Placed objs) (hm : l ∈ objs) :
    Got.relroBoundary objs l = Got.relroBoundary [l] l := by
  have hself : ∀ o ∈ objs, Got.relroOf l o ≠ none → o = l := by
    intro o hoU hne
    unfold Got.relroOf at hne
    split at hne
    · rename_i hany
      obtain ⟨p, -, hp⟩ := List.any_eq_true.1 hany
      simp only [decide_eq_true_eq] at hp
      exact hpl l hm o hoU hp.2.1 hp.2.2
    · exact absurd rfl hne
  clear hpl
  unfold Got.relroBoundary
  simp only [List.findSome?_cons, List.findSome?_nil]
  induction objs with
  | nil => cases hm
  | cons o objs ih =>
    rw [List.findSome?_cons]
    cases hr : Got.relroOf l o with
    | some x =>
      have : o = l := hself o (by simp) (by rw [hr]; simp)
      subst this
      rw [hr]
    | none =>
      by_cases ho' : l ∈ objs
      · exact ih ho' (fun o h => hself o (List.mem_cons_of_mem _ h))
      · have : l = o := by
          rcases List.mem_cons.1 hm with h | h
          · exact h
          · exact absurd h ho'
        subst this
        rw [hr]
        simp only
        rw [List.findSome?_eq_none_iff]
        intro o' h'
        by_contra hc
        exact ho' (by rw [← hself o' (List.mem_cons_of_mem _ h') hc]; exact h')

theorem markCalls_ok (w : World env U) {objs : List Lib} {l : Lib} (hl : U l)
    (hpl : Placed objs) (hm : l ∈ objs) :
    Got.markCalls (BitVec.ofNat 64 env.page) objs l = .ok (marksOf env l) := by
  have hb := relroBoundary_eq hpl hm
  have hsame : Got.markCalls (BitVec.ofNat 64 env.page) objs l =
      Got.markCalls (BitVec.ofNat 64 env.page) [l] l := by
    unfold Got.markCalls
    rw [hb]
  rw [hsame]
  obtain ⟨r, hr⟩ := w.rel hl
  unfold Elf.relocs at hr
  unfold marksOf
  cases hi : Got.markCalls (BitVec.ofNat 64 env.page) [l] l with
  | ok rs => rfl
  | error e =>
    exfalso
    unfold Got.markCalls at hi
    cases hd : Elf.initDynamic l.img with
    | error e => simp [hd] at hr
    | ok o =>
      rw [hd] at hi
      cases o with
      | none => simp at hi
      | some d =>
        simp only [w.page64, if_false] at hi
        split at hi <;> cases hi

theorem unprotect_fold (rs : List (Addr × BitVec 64)) : ∀ (s : State),
    ∃ wr', rs.foldl (State.unprotect env) s = { s with wr := wr' } ∧
      (∀ a, s.wr a = true → wr' a = true) ∧
      (∀ a r, r ∈ rs → env.mprotect r = true → Got.inRange a r → wr' a = true) := by
  induction rs with
  | nil => intro s; exact ⟨s.wr, rfl, fun _ h => h, by simp⟩
  | cons r rs ih =>
    intro s
    rw [List.foldl_cons]
    by_cases hmp : env.mprotect r = true
    · have h1 : s.unprotect env r =
          { s with wr := fun a => if Got.inRange a r then true else s.wr a } := by
        simp [State.unprotect, hmp]
      rw [h1]
      obtain ⟨wr', e, m1, m2⟩ :=
        ih { s with wr := fun a => if Got.inRange a r then true else s.wr a }
      refine ⟨wr', e, ?_, ?_⟩
      · intro a ha
        apply m1
        simp only
        split
        · rfl
        · exact ha
      · intro a r' hr' hp hin
        rcases List.mem_cons.1 hr' with rfl | hr'
        · apply m1; simp [hin]
        · exact m2 a r' hr' hp hin
    · have h1 : s.unprotect env r = s := by simp [State.unprotect, hmp]
      rw [h1]
      obtain ⟨wr', e, m1, m2⟩ := ih s
      refine ⟨wr', e, m1, ?_⟩
      intro a r' hr' hp hin
      rcases List.mem_cons.1 hr' with rfl | hr'
      · exact absurd hp hmp
      · exact m2 a r' hr' hp hin

theorem markGotWritable_spec (w : World env U) {s : State} {l : Lib} (hl : U l)
    (hpl : Placed s.linkMap) (hm : l ∈ s.linkMap) :
    ∃ wr', s.markGotWritable env l = .ok { s with wr := wr' } ∧
      (∀ a, s.wr a = true → wr' a = true) ∧ (∀ a, markedBy env l a → wr' a = true) := by
  unfold State.markGotWritable
  rw [markCalls_ok w hl hpl hm]
  obtain ⟨wr', e, m1, m2⟩ := unprotect_fold (marksOf env l) s
  exact ⟨wr', by simp only [e], m1, fun a ⟨r, hr, hp, hin⟩ => m2 a r hr hp hin⟩

/-- Writability bookkeeping of the loaded objects. -/
structure WrInv (env : Env) (linkMap : List Lib) (wr : Addr → Bool) (libs : List LibRec)
    (lm : Lib → Option Nat) : Prop where
  cover : ∀ l ∈ linkMap, ∀ p ∈ rlOf l, wr (l.addr + p.1) = true ∨ markedBy env l (l.addr + p.1)
  flag : ∀ l ∈ linkMap, ∀ rec, recAt libs lm l = some rec → rec.writable = true →
    ∀ p ∈ rlOf l, wr (l.addr + p.1) = true

theorem accepts_ok (w : World env U) (f : Filter) {l : Lib} (hl : U l) (n : Bool) :
    ∃ b, f.accepts l n = .ok b := by
  cases f with
  | all => exact ⟨_, rfl⟩
  | byName o =>
    cases o with
    | none => exact ⟨_, rfl⟩
    | some f =>
      obtain ⟨nm, hn⟩ := Option.isSome_iff_exists.1 (w.named hl)
      exact ⟨_, by simp only [Filter.accepts, hn]; rfl⟩
  | last => exact ⟨_, rfl⟩
  | custom f => exact ⟨_, rfl⟩

/-- Whether `update_library_got` rewrites the object: accepted and not up to date. -/
def processed (flt : Filter) (g : BitVec 32) (rec : Option LibRec) (l : Lib) (hasNext : Bool) :
    Bool :=
  (match flt.accepts l hasNext with | .ok b => b | .error _ => false) &&
    !decide ((rec.getD ⟨0, false, 0⟩).gen = g)

/-- What a pass may do to the record of a library. -/
def RecStep (g : BitVec 32) (r r' : Option LibRec) : Prop :=
  r' = r ∨ ∃ x, r' = some x ∧ (x.gen = g ∨ x.gen = (r.getD ⟨0, false, 0⟩).gen)

/-- The record of an object that the filter accepts and that has relocations is up to date. -/
def Marked (flt : Filter) (g : BitVec 32) (l : Lib) (n : Bool) (r : Option LibRec) : Prop :=
  flt.accepts l n = .ok true → (∃ rl, Elf.relocs l.img = .ok (some rl)) →
    (r.getD ⟨0, false, 0⟩).gen = g

theorem updateLib_spec (w : World env U) {seen} {t : HTable Name BId} {m}
    (ht : TabMap strhash t m) {s : State} {lm} (hL : LibInv U seen s.libTab s.libs lm)
    (hW : WrInv env s.linkMap s.wr s.libs lm) (hU : ∀ o ∈ s.linkMap, U o)
    (hpl : Placed s.linkMap) (hb : ∀ f b, m f = some b → b < s.binds.length) {l : Lib} (hl : l ∈ s.linkMap)
    (hseen : seen l) (n : Bool) :
    ∃ tl libs' lm' wr' mem', LibInv U seen tl libs' lm' ∧ WrInv env s.linkMap wr' libs' lm' ∧
      (∀ a, s.wr a = true → wr' a = true) ∧
      (∀ a, a ≠ l → recAt libs' lm' a = recAt s.libs lm a) ∧
      RecStep s.gen (recAt s.libs lm l) (recAt libs' lm' l) ∧
      Marked s.filter s.gen l n (recAt libs' lm' l) ∧
      mem' = (if processed s.filter s.gen (recAt s.libs lm l) l n then
          patch (wOf s.binds m) l.addr (rlOf l) s.mem else s.mem) ∧
      s.updateLib env t l n =
        .ok { s with libTab := tl, libs := libs', wr := wr', mem := mem' } := by
  have hlU := hU l hl
  obtain ⟨tl, libs1, lm1, r, rec, he, hL1, hlm1, hget, hrec, hext, hoth⟩ :=
    ensureLib_spec w hL hlU hseen
  obtain ⟨acc, hacc⟩ := accepts_ok w s.filter hlU n
  have hself : ((recAt s.libs lm l).getD ⟨0, false, 0⟩).gen = rec.gen := by
    rcases hext l with e | ⟨e1, e2⟩
    · rw [← e, hrec]; rfl
    · rw [e1]; rw [e2] at hrec; cases hrec; rfl
  have hstep0 : RecStep s.gen (recAt s.libs lm l) (recAt libs1 lm1 l) :=
    Or.inr ⟨rec, hrec, Or.inr (by rw [hself])⟩
  have hW1 : WrInv env s.linkMap s.wr libs1 lm1 := by
    refine ⟨hW.cover, ?_⟩
    intro l' hl' rec' hr' hwr
    rcases hext l' with e | ⟨e1, e2⟩
    · exact hW.flag l' hl' rec' (by rw [← e]; exact hr') hwr
    · rw [e2] at hr'; cases hr'; cases hwr
  have hpr : processed s.filter s.gen (recAt s.libs lm l) l n =
      (acc && !decide (rec.gen = s.gen)) := by
    simp only [processed, hacc, hself]
  rw [hpr]
  unfold State.updateLib
  simp only [he, bind, Except.bind, hacc]
  cases acc with
  | false =>
    exact ⟨tl, libs1, lm1, s.wr, s.mem, hL1, hW1, fun _ h => h, hoth, hstep0,
      (fun h => by rw [hacc] at h; cases h), by simp, by simp⟩
  | true =>
    simp only [Bool.not_true, Bool.false_eq_true, if_false, hget, Bool.true_and,
      Bool.not_eq_true', decide_eq_false_iff_not]
    by_cases hg : rec.gen = s.gen
    · simp only [hg, if_true, not_true]
      exact ⟨tl, libs1, lm1, s.wr, s.mem, hL1, hW1, fun _ h => h, hoth, hstep0,
        (fun _ _ => by rw [hrec]; exact hg), by simp, by simp⟩
    · simp only [hg, if_false, not_false_eq_true, if_true]
      -- after marking writable
      obtain ⟨wr', libs2, hmark, hwrm, hL2, hW2, hoth2, hrec2, hslots⟩ :
          ∃ wr' libs2, (if rec.writable = true then
              Except.ok { s with libTab := tl, libs := libs1 }
            else
              match State.markGotWritable env { s with libTab := tl, libs := libs1 } l with
              | .error e => .error e
              | .ok s => .ok { s with libs := s.libs.modify r (fun x => { x with writable := true }) })
              = .ok { s with libTab := tl, libs := libs2, wr := wr' } ∧
            (∀ a, s.wr a = true → wr' a = true) ∧ LibInv U seen tl libs2 lm1 ∧
            WrInv env s.linkMap wr' libs2 lm1 ∧
            (∀ a, a ≠ l → recAt libs2 lm1 a = recAt s.libs lm a) ∧
            (∃ rec2, recAt libs2 lm1 l = some rec2 ∧ rec2.gen = rec.gen) ∧
            (∀ p ∈ rlOf l, wr' (l.addr + p.1) = true) := by
        by_cases hwrt : rec.writable = true
        · refine ⟨s.wr, libs1, by rw [if_pos hwrt], fun _ h => h, hL1, hW1, hoth,
            ⟨rec, hrec, rfl⟩, hW1.flag l hl rec hrec hwrt⟩
        · obtain ⟨wr', hm, h1, h2⟩ := markGotWritable_spec w
            (s := { s with libTab := tl, libs := libs1 }) hlU hpl hl
          have hmod := recAt_modify hL1 hlm1 (fun x => { x with writable := true })
          have hsl : ∀ p ∈ rlOf l, wr' (l.addr + p.1) = true := by
            intro p hp
            rcases hW.cover l hl p hp with h | h
            · exact h1 _ h
            · exact h2 _ h
          refine ⟨wr', libs1.modify r (fun x => { x with writable := true }),
            by rw [if_neg hwrt, hm], h1, hL1.modify r _ (fun _ => rfl), ⟨?_, ?_⟩, ?_, ?_, hsl⟩
          · intro l' hl' p hp
            rcases hW.cover l' hl' p hp with h | h
            · exact Or.inl (h1 _ h)
            · exact Or.inr h
          · intro l' hl' rec' hr' hwr p hp
            by_cases e : l' = l
            · subst e
              exact hsl p hp
            · rw [hmod, if_neg e] at hr'
              exact h1 _ (hW1.flag l' hl' rec' hr' hwr p hp)
          · intro a ha
            rw [hmod, if_neg ha, hoth a ha]
          · exact ⟨{ rec with writable := true }, by rw [hmod, if_pos rfl, hrec]; rfl, rfl⟩
      obtain ⟨rec2, hr2, hr2g⟩ := hrec2
      have hstep2 : RecStep s.gen (recAt s.libs lm l) (recAt libs2 lm1 l) :=
        Or.inr ⟨rec2, hr2, Or.inr (by rw [hself, hr2g])⟩
      obtain ⟨rl?, hrl⟩ := w.rel hlU
      have hrest : ∀ X : Except Fault State,
          X = .ok { s with libTab := tl, libs := libs2, wr := wr' } →
          ∃ libs' mem', LibInv U seen tl libs' lm1 ∧ WrInv env s.linkMap wr' libs' lm1 ∧
            (∀ a, a ≠ l → recAt libs' lm1 a = recAt s.libs lm a) ∧
            RecStep s.gen (recAt s.libs lm l) (recAt libs' lm1 l) ∧
            Marked s.filter s.gen l n (recAt libs' lm1 l) ∧
            mem' = patch (wOf s.binds m) l.addr (rlOf l) s.mem ∧
            (match X with
              | .error e => .error e
              | .ok s => match Elf.relocs l.img with
                | .error e => .error e
                | .ok none => .ok s
                | .ok (some rl) => match writeRelocs t l.addr rl s with
                  | .error e => .error e
                  | .ok s => .ok { s with libs := s.libs.modify r (fun x => { x with gen := s.gen }) }) =
              Except.ok (ε := Fault) { s with libTab := tl, libs := libs', wr := wr', mem := mem' } := by
        intro X hX
        subst hX
        cases hrl' : rl? with
        | none =>
          have hempty : rlOf l = [] := by simp [rlOf, hrl, hrl']
          refine ⟨libs2, s.mem, hL2, hW2, hoth2, hstep2, ?_, by rw [hempty]; rfl, ?_⟩
          · rintro - ⟨rl, e⟩; rw [hrl, hrl'] at e; cases e
          simp only [hrl, hrl']
        | some rl =>
          have hrlo : rlOf l = rl := by simp [rlOf, hrl, hrl']
          have hmod := recAt_modify hL2 hlm1 (fun x => { x with gen := s.gen })
          have hwrite := writeRelocs_spec ht l.addr rl
            (s := { s with libTab := tl, libs := libs2, wr := wr' }) hb
            (by rw [← hrlo]; exact hslots)
          refine ⟨libs2.modify r (fun x => { x with gen := s.gen }),
            patch (wOf s.binds m) l.addr (rlOf l) s.mem, hL2.modify r _ (fun _ => rfl), ⟨hW2.cover, ?_⟩, ?_, ?_,
            ?_, rfl, ?_⟩
          · intro l' hl' rec' hr' hwr
            rw [hmod] at hr'
            by_cases e : l' = l
            · rw [if_pos e, hr2] at hr'
              cases hr'
              exact hW2.flag l' hl' rec2 (by rw [e]; exact hr2) hwr
            · rw [if_neg e] at hr'
              exact hW2.flag l' hl' rec' hr' hwr
          · intro a ha
            rw [hmod, if_neg ha, hoth2 a ha]
          · right
            exact ⟨{ rec2 with gen := s.gen }, by rw [hmod, if_pos rfl, hr2]; rfl, Or.inl rfl⟩
          · intro _ _
            rw [hmod, if_pos rfl, hr2]; rfl
          · simp only [hrl, hrl', hwrite, hrlo]
      obtain ⟨libs', mem', k1, k2, k3, k4, km, k5, k6⟩ := hrest _ hmark
      refine ⟨tl, libs', lm1, wr', mem', k1, k2, hwrm, k3, k4, km, k5, ?_⟩
      by_cases hwrt : rec.writable = true
      · rw [if_pos hwrt] at k6 ⊢
        rw [← k6]
        cases Elf.relocs l.img with
        | error e => rfl
        | ok o =>
          cases o with
          | none => rfl
          | some rl =>
            dsimp only
            cases writeRelocs t l.addr rl { s with libTab := tl, libs := libs1 } <;> rfl
      · rw [if_neg hwrt] at k6 ⊢
        rw [← k6]
        cases State.markGotWritable env { s with libTab := tl, libs := libs1 } l with
        | error e => rfl
        | ok s =>
          cases Elf.relocs l.img with
          | error e => rfl
          | ok o =>
            cases o with
            | none => rfl
            | some rl =>
              dsimp only
              cases writeRelocs t l.addr rl
                { s with libs := s.libs.modify r (fun x => { x with writable := true }) } <;> rfl

/-- The objects a pass rewrites. -/
def procList (flt : Filter) (g : BitVec 32) (R : Lib → Option LibRec) : List Lib → List Lib
  | [] => []
  | l :: ls =>
    if processed flt g (R l) l (!ls.isEmpty) then l :: procList flt g R ls
    else procList flt g R ls

theorem procList_congr (flt : Filter) (g : BitVec 32) {R R' : Lib → Option LibRec} (ls : List Lib)
    (h : ∀ l ∈ ls, R l = R' l) : procList flt g R ls = procList flt g R' ls := by
  induction ls with
  | nil => rfl
  | cons l ls ih =>
    rw [procList, procList, h l (by simp), ih (fun l hl => h l (List.mem_cons_of_mem _ hl))]

theorem updateLibs_spec (w : World env U) {seen} {t : HTable Name BId} {m}
    (ht : TabMap strhash t m) (ls : List Lib) (hnd : (ls.map (·.lm)).Nodup) :
    ∀ {s : State} {lm}, LibInv U seen s.libTab s.libs lm →
      WrInv env s.linkMap s.wr s.libs lm → (∀ o ∈ s.linkMap, U o ∧ seen o) →
      Placed s.linkMap → (∀ f b, m f = some b → b < s.binds.length) → (∀ l ∈ ls, l ∈ s.linkMap) →
    ∃ tl libs' lm' wr' mem', LibInv U seen tl libs' lm' ∧ WrInv env s.linkMap wr' libs' lm' ∧
      (∀ a, s.wr a = true → wr' a = true) ∧
      (∀ a, RecStep s.gen (recAt s.libs lm a) (recAt libs' lm' a)) ∧
      (∀ X l Y, ls = X ++ l :: Y → Marked s.filter s.gen l (!Y.isEmpty) (recAt libs' lm' l)) ∧
      mem' = (procList s.filter s.gen (recAt s.libs lm) ls).foldl
        (fun mem l => patch (wOf s.binds m) l.addr (rlOf l) mem) s.mem ∧
      updateLibs env t ls s =
        .ok { s with libTab := tl, libs := libs', wr := wr', mem := mem' } := by
  induction ls with
  | nil =>
    intro s lm hL hW _ _ _ _
    exact ⟨s.libTab, s.libs, lm, s.wr, s.mem, hL, hW, fun _ h => h, fun _ => Or.inl rfl,
      by intro X l Y e; simp at e, rfl, rfl⟩
  | cons l ls ih =>
    intro s lm hL hW hU hpl hb hls
    have hl := hls l (by simp)
    rw [List.map_cons, List.nodup_cons] at hnd
    obtain ⟨tl, libs1, lm1, wr1, mem1, hL1, hW1, hw1, ho1, hr1, hk1, hm1, he1⟩ :=
      updateLib_spec w ht hL hW (fun o ho => (hU o ho).1) hpl hb hl (hU l hl).2 (!ls.isEmpty)
    obtain ⟨tl2, libs2, lm2, wr2, mem2, hL2, hW2, hw2, hr2, hk2, hm2, he2⟩ :=
      ih hnd.2 (s := { s with libTab := tl, libs := libs1, wr := wr1, mem := mem1 }) hL1 hW1 hU hpl hb
        (fun l h => hls l (List.mem_cons_of_mem _ h))
    refine ⟨tl2, libs2, lm2, wr2, mem2, hL2, hW2, fun a h => hw2 a (hw1 a h), ?_, ?_, ?_, ?_⟩
    · intro a
      have h1 : RecStep s.gen (recAt s.libs lm a) (recAt libs1 lm1 a) := by
        by_cases e : a = l
        · rw [e]; exact hr1
        · exact Or.inl (ho1 a e)
      rcases hr2 a with e | ⟨x, e, hx⟩
      · rw [e]; exact h1
      · right
        refine ⟨x, e, ?_⟩
        rcases hx with hx | hx
        · exact Or.inl hx
        · rcases h1 with e1 | ⟨y, e1, hy⟩
          · right; simp only [e1] at hx; exact hx
          · simp only [e1, Option.getD_some] at hx
            rcases hy with hy | hy
            · left; rw [hx, hy]
            · right; rw [hx, hy]
    · intro X l' Y e hacc hrel
      cases X with
      | nil =>
        simp only [List.nil_append, List.cons.injEq] at e
        obtain ⟨rfl, rfl⟩ := e
        have h1 := hk1 hacc hrel
        rcases hr2 l with e | ⟨x, e, hx⟩
        · rw [e]; exact h1
        · rw [e]
          rcases hx with hx | hx
          · exact hx
          · exact hx.trans h1
      | cons x X =>
        simp only [List.cons_append, List.cons.injEq] at e
        exact hk2 X l' Y e.2 hacc hrel
    · rw [hm2]
      have hc : procList s.filter s.gen (recAt libs1 lm1) ls =
          procList s.filter s.gen (recAt s.libs lm) ls := by
        apply procList_congr
        intro l' hl'
        apply ho1
        intro e
        exact hnd.1 (e ▸ List.mem_map_of_mem hl')
      simp only [hc, procList, hm1]
      split <;> rfl
    · rw [updateLibs]
      simp only [he1, bind, Except.bind]
      exact he2

/-! ### what a pass writes -/

theorem patch_or (w : Name → Option Addr) (base : Addr) (rl : List (Addr × Name)) :
    ∀ (mem : Addr → Addr) (a : Addr), patch w base rl mem a = mem a ∨
      ∃ p ∈ rl, a = base + p.1 ∧ w p.2 = some (patch w base rl mem a) := by
  induction rl with
  | nil => intro mem a; exact Or.inl rfl
  | cons p rl ih =>
    obtain ⟨off, f⟩ := p
    intro mem a
    rw [patch]
    cases hw : w f with
    | none =>
      rcases ih mem a with h | ⟨p, hp, h⟩
      · exact Or.inl h
      · exact Or.inr ⟨p, List.mem_cons_of_mem _ hp, h⟩
    | some v =>
      simp only
      rcases ih (upd mem (base + off) v) a with h | ⟨p, hp, h⟩
      · by_cases e : a = base + off
        · right
          refine ⟨(off, f), by simp, e, ?_⟩
          rw [h, e]; simp [hw]
        · left; rw [h, upd_ne _ _ e]
      · exact Or.inr ⟨p, List.mem_cons_of_mem _ hp, h⟩

/-- After the pass the slot holds one of the values written to it, if there is one. -/
theorem patch_written (w : Name → Option Addr) (base : Addr) (rl : List (Addr × Name)) :
    ∀ (mem : Addr → Addr) {p}, p ∈ rl → (w p.2).isSome →
      ∃ q ∈ rl, base + p.1 = base + q.1 ∧ w q.2 = some (patch w base rl mem (base + p.1)) := by
  induction rl with
  | nil => intro mem p hp; cases hp
  | cons q rl ih =>
    obtain ⟨off, f⟩ := q
    intro mem p hp hs
    rw [patch]
    rcases List.mem_cons.1 hp with rfl | hp
    · obtain ⟨v, hv⟩ := Option.isSome_iff_exists.1 hs
      simp only at hv
      simp only [hv]
      rcases patch_or w base rl (upd mem (base + off) v) (base + off) with h | ⟨q, hq, e, h⟩
      · refine ⟨(off, f), by simp, rfl, ?_⟩
        rw [h]; simp [hv]
      · exact ⟨q, List.mem_cons_of_mem _ hq, e, h⟩
    · cases hw : w f with
      | none =>
        obtain ⟨q, hq, h⟩ := ih mem hp hs
        exact ⟨q, List.mem_cons_of_mem _ hq, h⟩
      | some v =>
        obtain ⟨q, hq, h⟩ := ih (upd mem (base + off) v) hp hs
        exact ⟨q, List.mem_cons_of_mem _ hq, h⟩

/-- The memory after a pass over the objects `ls`. -/
def passMem (w : Name → Option Addr) (ls : List Lib) (mem : Addr → Addr) : Addr → Addr :=
  ls.foldl (fun mem l => patch w l.addr (rlOf l) mem) mem

theorem passMem_or (w : Name → Option Addr) (ls : List Lib) :
    ∀ (mem : Addr → Addr) (a : Addr), passMem w ls mem a = mem a ∨
      ∃ l ∈ ls, ∃ p ∈ rlOf l, a = l.addr + p.1 ∧ w p.2 = some (passMem w ls mem a) := by
  induction ls with
  | nil => intro mem a; exact Or.inl rfl
  | cons l ls ih =>
    intro mem a
    have hd : passMem w (l :: ls) mem = passMem w ls (patch w l.addr (rlOf l) mem) := rfl
    rw [hd]
    rcases ih (patch w l.addr (rlOf l) mem) a with h | ⟨l', hl', h⟩
    · rcases patch_or w l.addr (rlOf l) mem a with h' | ⟨p, hp, e, h'⟩
      · exact Or.inl (h.trans h')
      · exact Or.inr ⟨l, by simp, p, hp, e, by rw [h]; exact h'⟩
    · exact Or.inr ⟨l', List.mem_cons_of_mem _ hl', h⟩

theorem passMem_written (w : Name → Option Addr) (ls : List Lib) :
    ∀ (mem : Addr → Addr) {l p}, l ∈ ls → p ∈ rlOf l → (w p.2).isSome →
      ∃ l' ∈ ls, ∃ q ∈ rlOf l', l.addr + p.1 = l'.addr + q.1 ∧
        w q.2 = some (passMem w ls mem (l.addr + p.1)) := by
  induction ls with
  | nil => intro mem l p hl; cases hl
  | cons l0 ls ih =>
    intro mem l p hl hp hs
    have hd : passMem w (l0 :: ls) mem = passMem w ls (patch w l0.addr (rlOf l0) mem) := rfl
    rw [hd]
    rcases List.mem_cons.1 hl with rfl | hl
    · rcases passMem_or w ls (patch w l.addr (rlOf l) mem) (l.addr + p.1) with h | ⟨l', hl', h⟩
      · obtain ⟨q, hq, e, h'⟩ := patch_written w l.addr (rlOf l) mem hp hs
        exact ⟨l, by simp, q, hq, e, by rw [h]; exact h'⟩
      · exact ⟨l', List.mem_cons_of_mem _ hl', h⟩
    · obtain ⟨l', hl', h⟩ := ih (patch w l0.addr (rlOf l0) mem) hl hp hs
      exact ⟨l', List.mem_cons_of_mem _ hl', h⟩

end Gotcha
