import Verif.Props.Records
import Verif.Props.Skip
import Verif.Props.Refute
/-
C23: loading an object again whose GOT is read-only crashes the intercepted dlopen, in any process.
-/
namespace Gotcha
open HTable
open Spec (confused)

/-- The flag "the GOT was made writable" in the record of an object, found the way GOTCHA finds it. -/
def writableOf (s : State) (l : Lib) : Bool :=
  match s.libTab.lookup (linkMapHash l) (linkMapEq l.lm) with
  | .ok (some r) => ((s.libs[r]?).getD ⟨0, false, 0⟩).writable
  | _ => false

namespace Reload

/-- What is fixed while the link map is searched and passed over. -/
structure Fix where
  l : Lib
  r : Nat
  g : BitVec 32
  M : List Lib
  F : Filter
  T : HTable Name BId
  slot : Addr

/-- The record of `l` says: writable, and of an old generation; its slot is not writable. -/
structure Doom (U : Lib → Prop) (c : Fix) (s : State) : Prop where
  own : ∃ own, Recs own s ∧ (∀ a ∈ own, U a) ∧ own.Pairwise (fun a b => ¬ confused a b) ∧
    own[c.r]? = some c.l
  record : ∃ rec : LibRec, s.libs[c.r]? = some rec ∧ rec.writable = true ∧ rec.gen ≠ c.g
  gen : s.gen = c.g
  map : s.linkMap = c.M
  flt : s.filter = c.F
  tab : s.funTab = c.T
  wr : s.wr c.slot = false

variable {U : Lib → Prop} {c : Fix}

theorem confused_self (l : Lib) : confused l l := ⟨rfl, BitVec.le_refl _⟩

theorem Doom.ensure (hU : ∀ a, U a → linkMapHash a = linkMapHash c.l → a = c.l) {s : State}
    (h : Doom U c s) {l' : Lib} (hl : U l') {x} (e : s.ensureLib l' = .ok x) :
    Doom U c x.1 ∧ (l' ≠ c.l → x.2 ≠ c.r) ∧ (l' = c.l → x.2 = c.r) := by
  obtain ⟨own, hr, hu, hp, ho⟩ := h.own
  obtain ⟨rec, h1, h2, h3⟩ := h.record
  obtain ⟨s', y, e', hr'⟩ := recs_ensure hr l'
  rw [e'] at e
  cases e
  have hlt : c.r < own.length := (List.getElem?_eq_some_iff.1 ho).1
  have hlen : s.libs.length = own.length := by simpa using congrArg List.length hr.recs
  unfold State.ensureLib at e'
  rcases recs_lookup hr l' with ⟨r, a, rec', g1, g2, g3, g4, g5⟩ | ⟨g1, g2⟩
  · rw [g1] at e'
    cases e'
    refine ⟨h, ?_, ?_⟩
    · rintro hne rfl
      rw [ho] at g2; cases g2
      exact hne (hU _ hl g3.1.symm)
    · rintro rfl
      have ha := hU a (hu a (List.mem_of_getElem? g2)) g3.1
      subst ha
      by_contra hne
      rw [List.pairwise_iff_getElem] at hp
      obtain ⟨q1, q2⟩ := List.getElem?_eq_some_iff.1 g2
      obtain ⟨q3, q4⟩ := List.getElem?_eq_some_iff.1 ho
      rcases Nat.lt_or_gt_of_ne hne with hlt' | hlt'
      · exact hp _ _ q1 q3 hlt' (by rw [q2, q4]; exact confused_self _)
      · exact hp _ _ q3 q1 hlt' (by rw [q2, q4]; exact confused_self _)
  · have hnc : ¬ ∃ a ∈ own, confused a l' := fun ⟨a, ha, hc⟩ => g2 a ha hc
    rw [if_neg hnc] at hr'
    rw [g1] at e'
    obtain ⟨o, ho', e'⟩ := ebind e'
    cases ho'
    obtain ⟨t, -, e'⟩ := ebind e'
    cases e'
    refine ⟨⟨⟨own ++ [l'], hr', ?_, ?_, ?_⟩, ⟨rec, ?_, h2, h3⟩, h.gen, h.map, h.flt, h.tab, h.wr⟩,
      ?_, ?_⟩
    · intro a ha
      rcases List.mem_append.1 ha with ha | ha
      · exact hu a ha
      · rw [List.mem_singleton.1 ha]; exact hl
    · rw [List.pairwise_append]
      refine ⟨hp, List.pairwise_singleton _ _, fun a ha b hb hc => ?_⟩
      rw [List.mem_singleton.1 hb] at hc
      exact g2 a ha hc
    · rw [List.getElem?_append_left hlt]; exact ho
    · show (s.libs ++ _)[c.r]? = _
      rw [List.getElem?_append_left (by omega)]; exact h1
    · intro _; show s.libs.length ≠ c.r; omega
    · rintro rfl
      exact absurd (confused_self _) (g2 _ (List.mem_of_getElem? ho))

/-- The parts of the state that `Doom` is about. -/
def dv (s : State) :=
  (s.libTab, s.libs, s.gen, s.linkMap, s.filter, s.funTab, s.wr)

theorem Doom.frame {s s' : State} (h : Doom U c s) (e : dv s' = dv s) : Doom U c s' := by
  simp only [dv, Prod.mk.injEq] at e
  obtain ⟨e1, e2, e3, e4, e5, e6, e7⟩ := e
  obtain ⟨own, hr, hx⟩ := h.own
  exact ⟨⟨own, ⟨by rw [e1]; exact hr.repr, by rw [e2]; exact hr.recs⟩, hx⟩, by rw [e2]; exact h.record,
    by rw [e3]; exact h.gen, by rw [e4]; exact h.map, by rw [e5]; exact h.flt,
    by rw [e6]; exact h.tab, by rw [e7]; exact h.wr⟩

theorem setInternal_dv {s s' : State} {h v} (e : s.setInternal h v = .ok s') : dv s' = dv s := by
  unfold State.setInternal at e
  split at e
  · cases e
  · split at e
    · cases e; rfl
    · cases e

theorem lookupExported_dv {env : Env} {s : State} {n l r}
    (e : s.lookupExported env n l = .ok r) : dv r.1 = dv s := by
  have hv : ∀ {s : State}, dv (s.isVdso env l).1 = dv s := by
    intro s
    unfold State.isVdso
    split <;> rfl
  have h0 := hv (s := s)
  unfold State.lookupExported at e
  cases hvd : s.isVdso env l with
  | mk s1 b =>
    rw [hvd] at e h0
    cases b with
    | true => cases e; exact h0
    | false =>
      simp only at e
      split at e
      · cases e
      · cases e; exact h0

variable (hU : ∀ a, U a → linkMapHash a = linkMapHash c.l → a = c.l) (hM : ∀ l ∈ c.M, U l)

include hU in
theorem prepareLoop_doom {env : Env} {n h} (ls : List Lib) : (∀ l ∈ ls, U l) → ∀ {s r}, Doom U c s →
    prepareLoop env n h ls s = .ok r → Doom U c r.1 := by
  induction ls with
  | nil => intro _ s r hs e; cases e; exact hs
  | cons l ls ih =>
    intro hl s r hs e
    obtain ⟨a, h1, e⟩ := ebind e
    obtain ⟨x, h2, e⟩ := ebind e
    have e2 := (hs.ensure hU (hl l (by simp)) h1).1.frame (lookupExported_dv h2)
    obtain ⟨s2, o⟩ := x
    cases o with
    | some a =>
      obtain ⟨s3, h3, e⟩ := ebind e
      cases e
      exact e2.frame (setInternal_dv h3)
    | none => exact ih (fun l' h' => hl l' (by simp [h'])) e2 e

include hU hM in
theorem perBinding_doom {env : Env} {k d} {s : State} {r} (hs : Doom U c s)
    (h : perBinding env k d s = .ok r) : Doom U c r.1 := by
  unfold perBinding at h
  split at h
  · obtain ⟨b', -, h⟩ := ebind h
    obtain ⟨⟨s2, ok⟩, h2, h⟩ := ebind h
    obtain ⟨x, -, h2⟩ := ebind h2
    have e2 := prepareLoop_doom hU _ (by rw [hs.map]; exact hM) hs h2
    dsimp only at h
    split at h
    · obtain ⟨t, -, h⟩ := ebind h
      cases h; exact e2.frame rfl
    · cases h; exact e2
  · cases h

include hU hM in
theorem foreachEntry_doom {env : Env} : ∀ fuel cur {s s'}, Doom U c s →
    foreachEntry State.notFound (perBinding env) fuel cur s = .ok s' → Doom U c s' := by
  intro fuel
  induction fuel with
  | zero =>
    intro cur s s' hs e
    cases cur with
    | none => cases e; exact hs
    | some i => simp [foreachEntry] at e
  | succ fuel ih =>
    intro cur s s' hs e
    cases cur with
    | none => cases e; exact hs
    | some i =>
      rw [foreachEntry] at e
      split at e
      · cases e
      · split at e
        · cases e
        · rename_i h1
          cases e
          exact perBinding_doom hU hM hs h1
        · rename_i h1
          have h2 := perBinding_doom hU hM hs h1
          split at e
          · cases e
          · exact ih _ h2 e

/-- The state but for the memory. -/
theorem writeRelocs_frame {t : HTable Name BId} {base} (rl : List (Addr × Name)) :
    ∀ {s s' : State}, writeRelocs t base rl s = .ok s' → dv s' = dv s := by
  induction rl with
  | nil => intro s s' e; cases e; rfl
  | cons q rl ih =>
    intro s s' e
    obtain ⟨off, name⟩ := q
    obtain ⟨o, -, e⟩ := ebind e
    cases o with
    | none => exact ih e
    | some b =>
      obtain ⟨x, -, e⟩ := ebind e
      obtain ⟨s1, h1, e⟩ := ebind e
      rw [ih e]
      unfold State.write at h1
      split at h1
      · cases h1; rfl
      · cases h1

/-- Writing a slot that is not writable does not succeed. -/
theorem writeRelocs_stuck {t : HTable Name BId} {base off f b} (hf : nameLookup t f = .ok (some b))
    (rl : List (Addr × Name)) : (off, f) ∈ rl → ∀ {s s' : State}, s.wr (base + off) = false →
    writeRelocs t base rl s ≠ .ok s' := by
  induction rl with
  | nil => intro h; cases h
  | cons q rl ih =>
    intro hm s s' hw e
    obtain ⟨off', name⟩ := q
    obtain ⟨o, ho, e⟩ := ebind e
    rcases List.mem_cons.1 hm with heq | hm
    · cases heq
      rw [hf] at ho; cases ho
      obtain ⟨x, -, e⟩ := ebind e
      obtain ⟨s1, h1, e⟩ := ebind e
      unfold State.write at h1
      rw [hw] at h1
      cases h1
    · cases o with
      | none => exact ih hm hw e
      | some b =>
        obtain ⟨x, -, e⟩ := ebind e
        obtain ⟨s1, h1, e⟩ := ebind e
        refine ih hm ?_ e
        unfold State.write at h1
        split at h1
        · cases h1; exact hw
        · cases h1

theorem unprotect_doom {env : Env} (rs : List (Addr × BitVec 64))
    (hrs : ∀ r ∈ rs, ¬ Got.inRange c.slot r) : ∀ {s : State}, Doom U c s →
    Doom U c (rs.foldl (State.unprotect env) s) := by
  induction rs with
  | nil => intro s h; exact h
  | cons r rs ih =>
    intro s h
    rw [List.foldl_cons]
    refine ih (fun x hx => hrs x (by simp [hx])) ?_
    unfold State.unprotect
    split
    · obtain ⟨own, hr, hx⟩ := h.own
      refine ⟨⟨own, ⟨hr.repr, hr.recs⟩, hx⟩, h.record, h.gen, h.map, h.flt, h.tab, ?_⟩
      show (if Got.inRange c.slot r then true else s.wr c.slot) = false
      rw [if_neg (hrs r (by simp))]
      exact h.wr
    · exact h

theorem modify_doom {s : State} (h : Doom U c s) {x : Nat} (hx : x ≠ c.r) (f : LibRec → LibRec)
    (hf : ∀ y, (f y).map = y.map) : Doom U c { s with libs := s.libs.modify x f } := by
  obtain ⟨own, hr, ho⟩ := h.own
  obtain ⟨rec, h1, h2⟩ := h.record
  refine ⟨⟨own, ⟨hr.repr, ?_⟩, ho⟩, ⟨rec, ?_, h2⟩, h.gen, h.map, h.flt, h.tab, h.wr⟩
  · show (s.libs.modify x f).map (·.map) = _
    rw [modify_maps hf]; exact hr.recs
  · show (s.libs.modify x f)[c.r]? = _
    rw [List.getElem?_modify, h1]
    simp [hx]

include hU in
theorem updateLib_doom {env : Env} {t : HTable Name BId} {s s' : State} {l' n} (hs : Doom U c s)
    (hl : U l') (hne : l' ≠ c.l)
    (hap : ∀ rs, Got.markCalls (BitVec.ofNat 64 env.page) c.M l' = .ok rs →
      ∀ r ∈ rs, ¬ Got.inRange c.slot r)
    (e : s.updateLib env t l' n = .ok s') : Doom U c s' := by
  obtain ⟨⟨s1, x⟩, h1, e⟩ := ebind e
  obtain ⟨e1, hx, -⟩ := hs.ensure hU hl h1
  replace hx := hx hne
  dsimp only at e1 hx
  obtain ⟨acc, -, e⟩ := ebind e
  dsimp only at e
  split at e
  · cases e; exact e1
  · split at e
    · cases e
    · split at e
      · cases e; exact e1
      · have tail : ∀ {s2 : State}, Doom U c s2 → (do
            match ← Elf.relocs l'.img with
            | none => Except.ok s2
            | some rl =>
              let s ← writeRelocs t l'.addr rl s2
              .ok { s with libs := s.libs.modify x (fun x => { x with gen := s.gen }) }) = .ok s' →
            Doom U c s' := by
          intro s2 e2 e
          obtain ⟨o, -, e⟩ := ebind e
          cases o with
          | none => cases e; exact e2
          | some rl =>
            obtain ⟨s4, h4, e⟩ := ebind e
            cases e
            exact modify_doom (e2.frame (writeRelocs_frame _ h4)) hx _ (fun _ => rfl)
        split at e
        · obtain ⟨s2, h2, e⟩ := ebind e
          cases h2
          exact tail e1 e
        · obtain ⟨s3, h3, e⟩ := ebind e
          obtain ⟨s2, h2, e⟩ := ebind e
          cases h2
          refine tail ?_ e
          refine modify_doom ?_ hx _ (fun _ => rfl)
          unfold State.markGotWritable at h3
          split at h3
          · cases h3
          · rename_i rs hrs
            cases h3
            rw [e1.map] at hrs
            exact unprotect_doom _ (hap _ hrs) e1

include hU in
theorem updateLib_stuck {env : Env} {s s' : State} {n rl off f b} (hs : Doom U c s) (hl : U c.l)
    (hacc : c.F.accepts c.l n = .ok true) (hrl : Elf.relocs c.l.img = .ok (some rl))
    (hoff : (off, f) ∈ rl) (hslot : c.slot = c.l.addr + off) {t : HTable Name BId}
    (hf : nameLookup t f = .ok (some b)) : s.updateLib env t c.l n ≠ .ok s' := by
  intro e
  obtain ⟨⟨s1, x⟩, h1, e⟩ := ebind e
  obtain ⟨e1, -, hx⟩ := hs.ensure hU hl h1
  replace hx := hx rfl
  dsimp only at e1 hx e
  subst hx
  obtain ⟨rec, g1, g2, g3⟩ := e1.record
  rw [e1.flt, hacc] at e
  obtain ⟨a, ha, e⟩ := ebind e
  cases ha
  rw [g1] at e
  simp only [Bool.not_true, Bool.false_eq_true, if_false] at e
  rw [e1.gen, if_neg g3, g2] at e
  simp only [if_true] at e
  obtain ⟨s2, h2, e⟩ := ebind e
  cases h2
  rw [hrl] at e
  obtain ⟨o, ho, e⟩ := ebind e
  cases ho
  obtain ⟨s3, h3, -⟩ := ebind e
  exact writeRelocs_stuck hf rl hoff (by rw [← hslot]; exact e1.wr) h3

include hU in
theorem updateLibs_stuck {env : Env} {t : HTable Name BId} {rl off f b} {post : List Lib}
    (hacc : c.F.accepts c.l (!post.isEmpty) = .ok true) (hrl : Elf.relocs c.l.img = .ok (some rl))
    (hoff : (off, f) ∈ rl) (hslot : c.slot = c.l.addr + off)
    (hf : nameLookup t f = .ok (some b)) (hlU : U c.l) : ∀ (pre : List Lib),
    (∀ l' ∈ pre, U l') → c.l ∉ pre →
    (∀ l' ∈ pre, ∀ rs, Got.markCalls (BitVec.ofNat 64 env.page) c.M l' = .ok rs →
      ∀ r ∈ rs, ¬ Got.inRange c.slot r) →
    ∀ {s s' : State}, Doom U c s → updateLibs env t (pre ++ c.l :: post) s ≠ .ok s' := by
  intro pre
  induction pre with
  | nil =>
    intro _ _ _ s s' hs e
    obtain ⟨s1, h1, -⟩ := ebind e
    exact updateLib_stuck hU hs hlU hacc hrl hoff hslot hf h1
  | cons l' pre ih =>
    intro hu hn hap s s' hs e
    obtain ⟨s1, h1, e⟩ := ebind e
    refine ih (fun x hx => hu x (by simp [hx])) (fun hx => hn (by simp [hx]))
      (fun x hx => hap x (by simp [hx])) ?_ e
    exact updateLib_doom hU hs (hu l' (by simp)) (fun h => hn (by simp [h]))
      (hap l' (by simp)) h1

end Reload
open Reload

/-- C23, what goes wrong, in any process and after any events.  Let an object `l` be loaded by an
intercepted dlopen for which GOTCHA still has a record that says "GOT made writable" and that is of an
earlier generation (the object was loaded and unloaded before).  If its slot for a wrapped function is
read-only then the call does not return: GOTCHA writes to the read-only slot. -/
theorem C23_reload_crashes {env : Env} (hp : 48 ≤ env.page) {libs : List Lib}
    {mem : Addr → Addr} {wr : Addr → Bool} {ops : List Op} {s os}
    (hr : run env ops (State.start libs mem wr) = .ok (s, os)) (hi : s.inited = true)
    {ld : Load} {l : Lib} {pre post : List Lib} (hm : s.linkMap ++ ld.libs = pre ++ l :: post)
    (hpre : l ∉ pre)
    (hident : ∀ a, (a ∈ libs ∨ ∃ op ∈ ops ++ [.dlopen ld], a ∈ loadsOf op) →
      linkMapHash a = linkMapHash l → a = l)
    (hstale : genOf s l ≠ s.gen) (hwr : writableOf s l = true)
    (hacc : s.filter.accepts l (!post.isEmpty) = .ok true)
    {off f b} (hoff : (off, f) ∈ rlOf l) (hf : nameLookup s.funTab f = .ok (some b))
    (hro : ld.wr (l.addr + off) = some false)
    (hap : ∀ l' ∈ pre, ∀ rs, Got.markCalls (BitVec.ofNat 64 env.page) (s.linkMap ++ ld.libs) l' =
      .ok rs → ∀ r ∈ rs, ¬ Got.inRange (l.addr + off) r) :
    ∀ r, stepOp env (.dlopen ld) s ≠ .ok r := by
  intro x e
  set U : Lib → Prop := fun a => a ∈ libs ∨ ∃ op ∈ ops ++ [.dlopen ld], a ∈ loadsOf op with hUdef
  have h0 : RInv U (State.start libs mem wr) :=
    ⟨fun h => by simp [State.start] at h, fun _ => rfl, fun l hl => Or.inl hl⟩
  have h1 : RInv U s := run_rinv hp ops h0
    (fun op ho l hl => Or.inr ⟨op, List.mem_append_left _ ho, hl⟩) hr
  have h2 : RInv U (s.load ld) := load_rinv h1
    (fun l hl => Or.inr ⟨.dlopen ld, by simp, hl⟩)
  obtain ⟨own, hR, hown, hpw⟩ := h1.recs hi
  obtain ⟨rl, hrl⟩ := hasRel_of_mem hoff
  have hoff' : (off, f) ∈ rl := by
    have : rlOf l = rl := by simp [rlOf, hrl]
    rw [← this]; exact hoff
  have hmap : (s.load ld).linkMap = pre ++ l :: post := hm
  have hUm : ∀ a ∈ pre ++ l :: post, U a := by rw [← hmap]; exact h2.map
  obtain ⟨r, rec, g1, g2, g3, g4⟩ : ∃ (r : Nat) (rec : LibRec), own[r]? = some l ∧ s.libs[r]? = some rec ∧
      rec.writable = true ∧ rec.gen ≠ s.gen := by
    unfold genOf at hstale
    unfold writableOf at hwr
    rcases recs_lookup hR l with ⟨r, a, rec, q1, q2, q3, q4, q5⟩ | ⟨q1, -⟩
    · rw [q1] at hstale hwr
      simp only [q4, Option.getD_some] at hstale hwr
      have : a = l := hident a (hown a (List.mem_of_getElem? q2)) q3.1
      subst this
      exact ⟨r, rec, q2, q4, hwr, hstale⟩
    · rw [q1] at hwr; cases hwr
  let c : Fix := ⟨l, r, s.gen, s.linkMap ++ ld.libs, s.filter, s.funTab, l.addr + off⟩
  have hd : Doom U c (s.load ld) := by
    refine ⟨⟨own, ⟨hR.repr, hR.recs⟩, hown, hpw, g1⟩, ⟨rec, g2, g3, g4⟩, rfl, rfl, rfl, rfl, ?_⟩
    show (ld.wr (l.addr + off)).getD _ = false
    rw [hro]; rfl
  rw [stepOp, if_pos hi] at e
  obtain ⟨s1, e1, -⟩ := ebind e
  obtain ⟨w, -, e1⟩ := ebind e1
  obtain ⟨s2, e2, e1⟩ := ebind e1
  have hd2 : Doom U c s2 := foreachEntry_doom (c := c) hident (by
    show ∀ l' ∈ s.linkMap ++ ld.libs, U l'
    rw [hm]; exact hUm) _ _ hd e2
  unfold State.updateAll at e1
  rw [hd2.map, hd2.tab] at e1
  have e1' : updateLibs env s.funTab (pre ++ l :: post) s2 = .ok s1 := hm ▸ e1
  exact updateLibs_stuck (c := c) hident hacc hrl hoff' rfl hf (hUm l (by simp)) pre
    (fun a ha => hUm a (by simp [ha])) hpre hap hd2 e1'

namespace Demo

theorem crash_state : (match run env (opsCrash.take 4) proc.start with
    | .ok (s, _) => s.inited && decide (s.linkMap.map (·.name) = [app.name, libc.name]) &&
        decide (s.linkMap.map (·.lm) = [app.lm, libc.lm]) &&
        decide (genOf s plug ≠ s.gen) && writableOf s plug &&
        (match s.filter with | .all => true | _ => false) &&
        (match nameLookup s.funTab (nm "foo") with | .ok (some _) => true | _ => false)
    | .error _ => false) = true := by decide +kernel

theorem crash_apart : ([app, libc].all fun l' =>
    match Got.markCalls (BitVec.ofNat 64 env.page) [app, libc, plug] l' with
    | .ok rs => rs.all fun r => decide (¬ Got.inRange (plug.addr + 0x18) r)
    | .error _ => true) = true := by decide +kernel

theorem crash_hashes : linkMapHash app ≠ linkMapHash plug ∧ linkMapHash libc ≠ linkMapHash plug := by
  decide +kernel

end Demo

/-- The hypotheses are met in the demo process after `foo` was wrapped, the plugin loaded and unloaded,
and `bar` wrapped. -/
example : ∃ s os, run Demo.env (Demo.opsCrash.take 4) Demo.proc.start = .ok (s, os) ∧
    ∀ r, stepOp Demo.env (.dlopen Demo.reload) s ≠ .ok r := by
  have hk := Demo.crash_state
  split at hk
  · rename_i s os hr
    simp only [Bool.and_eq_true, decide_eq_true_eq] at hk
    obtain ⟨⟨⟨⟨⟨⟨k1, -⟩, -⟩, k3⟩, k4⟩, k5⟩, k6⟩ := hk
    have k2 : s.linkMap = [Demo.app, Demo.libc] := by
      have h := (Spec.events_env Demo.proc_ok (Demo.opsCrash.take 4) crash_history.toEvents hr).1
      rw [h]
      rfl
    refine ⟨s, os, hr, ?_⟩
    have hflt : s.filter = .all := by
      split at k5
      · assumption
      · cases k5
    obtain ⟨b, hb⟩ : ∃ b, nameLookup s.funTab (nm "foo") = .ok (some b) := by
      split at k6
      · rename_i b e; exact ⟨b, e⟩
      · cases k6
    refine C23_reload_crashes (env := Demo.env) (by decide) (ops := Demo.opsCrash.take 4)
      (libs := [Demo.app, Demo.libc]) (mem := Demo.proc.mem) (wr := Demo.proc.wr) hr k1
      (l := Demo.plug) (pre := [Demo.app, Demo.libc]) (post := []) (by rw [k2]; rfl) ?_ ?_ k3 k4
      (by rw [hflt]; rfl) (off := 0x18) (f := nm "foo") (b := b) ?_ hb rfl ?_
    · intro h
      simp only [List.mem_cons, List.not_mem_nil, or_false] at h
      rcases h with h | h
      · exact Demo.crash_hashes.1 (by rw [h])
      · exact Demo.crash_hashes.2 (by rw [h])
    · intro a ha he
      have : a = Demo.app ∨ a = Demo.libc ∨ a = Demo.plug := by
        simpa [Demo.opsCrash, loadsOf, Demo.loadPlug, Demo.reload, or_assoc] using ha
      rcases this with rfl | rfl | rfl
      · exact absurd he Demo.crash_hashes.1
      · exact absurd he Demo.crash_hashes.2
      · rfl
    · rw [Demo.plug, Demo.rlOf_obj (by decide)]; simp
    · intro l' hl' rs hrs r hr'
      rw [k2] at hrs
      have := List.all_eq_true.1 Demo.crash_apart l' hl'
      have hrs' : Got.markCalls (BitVec.ofNat 64 Demo.env.page)
        [Demo.app, Demo.libc, Demo.plug] l' = .ok rs := hrs
      rw [hrs'] at this
      simpa using List.all_eq_true.1 this r hr'
  · cases hk

end Gotcha
