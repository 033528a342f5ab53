import Verif.Spec.Bits
import Verif.Model.Perm
import Verif.Proof.Shut
import Verif.Proof.Effects
import Verif.Proof.View
import Verif.Props.Got
import Verif.Props.Effects
import Verif.Demo.Versions
import Verif.Demo.Facts
/-
Property C104: which page protections GOTCHA changes, and that they stay changed.
-/
namespace Gotcha.Props
open Gotcha Elf Spec Got

section
variable {k : Nat}

theorem dynSection_unique {img : Image} {l l' : List (Nat × Addr)} (h : DynSection img l)
    (h' : DynSection img l') : l = l' := by
  obtain ⟨h1, v, rest, h2⟩ := h
  obtain ⟨h1', v', rest', h2'⟩ := h'
  rw [h2] at h2'
  simp only [Option.some.injEq] at h2'
  have key : ∀ (l : List (Nat × Addr)) v rest, (∀ e ∈ l, e.1 ≠ 0) →
      (l ++ (0, v) :: rest).takeWhile (fun e => decide (e.1 ≠ 0)) = l := by
    intro l v rest h
    rw [List.takeWhile_append_of_pos (by simpa using h)]
    simp
  rw [← key l v rest h1, h2', key l' v' rest' h1']

/-- What an mprotect call for `l` can touch. -/
theorem call_region (hk : k < 64) {objs : List Lib} {l : Lib} (hpl : Placed objs) (hin : l ∈ objs)
    (hz : Sized k l) {rs} (h : markCalls (BitVec.ofNat 64 (2 ^ k)) objs l = .ok rs) {r} (hr : r ∈ rs)
    {a : Addr} (ha : inRange a r) : OnRelro k l a ∨ OnGot k l a := by
  have hp := Nat.two_pow_pos k
  have hpg : BitVec.ofNat 64 (2 ^ k) ≠ 0 := by
    intro h
    have := congrArg BitVec.toNat h
    rw [BitVec.toNat_ofNat, Nat.mod_eq_of_lt (Nat.pow_lt_pow_right (by omega) hk)] at this
    have h0 : (0 : BitVec 64).toNat = 0 := rfl
    omega
  unfold markCalls at h
  rcases hz.dyn with hd | ⟨tags, hd, he, hg⟩
  · rw [(C70_no_dynamic_section hd).1] at h
    cases h
    cases hr
  · rw [C70_dynamic_section hd he] at h
    simp only at h
    split at h
    · cases h; cases hr
    · rename_i hg0
      cases h
      obtain ⟨g, hg1⟩ : ∃ g, tagVal tags Tag.PLTGOT = some g := by
        cases hx : tagVal tags Tag.PLTGOT with
        | none => exact absurd (by simp [sectionInfo, hx]) hg0
        | some g => exact ⟨g, rfl⟩
      have hgv : (sectionInfo tags).got = g := by simp [sectionInfo, hg1]
      have hgz : g ≠ 0 := by rwa [hgv] at hg0
      rw [hgv] at hr
      have hsz : (sectionInfo tags).relSize.toNat = ((tagVal tags Tag.RELSZ).getD 0).toNat % 2 ^ 32 :=
        BitVec.toNat_setWidth ..
      have hseg : ∀ s e, relroBoundary objs l = some (s, e) → ∃ p ∈ l.phdrs, p.type = 0x6474e552 ∧
          s.toNat = l.addr.toNat + p.vaddr.toNat ∧
          e.toNat = l.addr.toNat + p.vaddr.toNat + p.memsz.toNat := by
        intro s e hse
        obtain ⟨o, ho, hso, p, hpm, hpt, h1, h2⟩ := C54_region_is_its_own objs l s e hse
        have := hpl l hin o ho hso.1.symm hso.2.symm
        subst this
        obtain ⟨-, hb⟩ := hz.relro p hpm hpt
        have e1 : (o.addr + p.vaddr).toNat = o.addr.toNat + p.vaddr.toNat := by
          rw [BitVec.toNat_add, Nat.mod_eq_of_lt (by omega)]
        refine ⟨p, hpm, hpt, by rw [h1, e1], ?_⟩
        rw [h2, BitVec.toNat_add, e1, Nat.mod_eq_of_lt (by omega)]
      have hb := hg g hg1
      rcases C53_nothing_else hk (by rw [hsz]; exact hb) (by
          intro s e hse
          obtain ⟨p, hpm, hpt, h1, h2⟩ := hseg s e hse
          have := hz.relro p hpm hpt
          omega) a.toNat hr ha with ⟨s, e, hse, x, h1, h2, h3⟩ | ⟨h1, h2⟩
      · obtain ⟨p, hpm, hpt, q1, q2⟩ := hseg s e hse
        exact Or.inl ⟨p, hpm, hpt, x, by omega, by omega, h3⟩
      · rw [hsz] at h2
        exact Or.inr ⟨tags, g, hd, hg1, hgz, h1, h2⟩

theorem loaderPart_wr (s : State) (op : Op) (a : Addr) :
    (loaderPart s op).wr a = loaderBit op a (s.wr a) := by
  cases op <;> rfl

/-- C104: one event, from any state: afterwards a word has the protection the loader gave it, or it is
writable and its page belongs to the RELRO segment or the PLT GOT of an object the filter lets through. -/
theorem C104_event (hk : k < 64) {env : Env} (hpage : env.page = 2 ^ k) {s s' : State} {op : Op} {o}
    (hr : stepOp env op s = .ok (s', o)) (hpl : Placed (loadStep s.linkMap op))
    (hz : ∀ l ∈ loadStep s.linkMap op, Sized k l) :
    s'.linkMap = loadStep s.linkMap op ∧ s'.filter = filterStep s.filter op ∧
      ∀ a, s'.wr a = loaderBit op a (s.wr a) ∨
        (s'.wr a = true ∧ ∃ l, Admitted (filterStep s.filter op) (loadStep s.linkMap op) l ∧
          (OnRelro k l a ∨ OnGot k l a)) := by
  have hS : Shut env (fun t : List Lib × Filter × (Addr → Bool) × (Addr → Addr) =>
      t.1 = loadStep s.linkMap op ∧ t.2.1 = filterStep s.filter op ∧
      ∀ a, t.2.2.1 a = loaderBit op a (s.wr a) ∨
        (t.2.2.1 a = true ∧ ∃ l, Admitted (filterStep s.filter op) (loadStep s.linkMap op) l ∧
          (OnRelro k l a ∨ OnGot k l a))) := by
    constructor
    · rintro X l Y F w m rs r ⟨h1, h2, h3⟩ hacc hm hrs -
      dsimp only at h1 h2 h3 ⊢
      refine ⟨h1, h2, ?_⟩
      intro a
      split
      · rename_i hin
        right
        refine ⟨rfl, l, ⟨X, Y, h1.symm, ?_⟩, ?_⟩
        · rw [← h2]; exact accepts_lets hacc
        · rw [hpage] at hm
          exact call_region hk (by rw [h1]; exact hpl) (by simp) (hz l (by rw [← h1]; simp)) hm hrs hin
      · exact h3 a
    · rintro L F w m a v ⟨h1, h2, h3⟩ -
      exact ⟨h1, h2, h3⟩
  refine stepOp_shut hS hr ⟨loaderPart_linkMap s op, loaderPart_filter s op, ?_⟩
  intro a
  exact Or.inl (loaderPart_wr s op a)

theorem loaderBit_false {op : Op} {a : Addr} (h : loaderBit op a true = false) (b : Bool) :
    loaderBit op a b = false := by
  cases op <;> first | (cases h) | skip
  all_goals
    rename_i ld
    unfold loaderBit at h ⊢
    cases hx : ld.wr a with
    | none => simp [hx] at h
    | some v => simpa [hx] using h

theorem loaderWr_snoc (wr : Addr → Bool) (ops : List Op) (op : Op) (a : Addr) :
    loaderWr wr (ops ++ [op]) a = loaderBit op a (loaderWr wr ops a) := by
  simp [loaderWr, List.foldl_append]

/-- C104: over any run of a process, whatever its clients do: a word has the protection the loader gave it,
or it is writable and its page belonged, at some moment, to the RELRO segment or the PLT GOT of a loaded object
that the filter then in force let through. -/
theorem C104_only_library_pages (hk : k < 64) {p : Process} (hpage : p.env.page = 2 ^ k) (ops : List Op)
    (hok : ∀ pre, pre <+: ops → Placed (libsAfter p.libs pre) ∧ ∀ l ∈ libsAfter p.libs pre, Sized k l) :
    ∀ {s os}, run p.env ops p.start = .ok (s, os) →
    s.linkMap = libsAfter p.libs ops ∧ s.filter = filterAfter ops ∧
    ∀ a, s.wr a = loaderWr p.wr ops a ∨ (s.wr a = true ∧ ∃ pre, pre <+: ops ∧ ∃ l,
      Admitted (filterAfter pre) (libsAfter p.libs pre) l ∧ (OnRelro k l a ∨ OnGot k l a)) := by
  induction ops using List.reverseRecOn with
  | nil => intro s os hr; cases hr; exact ⟨rfl, rfl, fun a => Or.inl rfl⟩
  | append_singleton ops op ih =>
    intro s' os' hr
    obtain ⟨s, os, o, h1, h2, -⟩ := run_last hr
    obtain ⟨e1, e2, e3⟩ := ih (fun pre hp => hok pre (hp.trans (List.prefix_append _ _))) h1
    obtain ⟨q1, q2⟩ := hok _ (List.prefix_refl _)
    rw [libsAfter_snoc, ← e1] at q1 q2
    obtain ⟨f1, f2, f3⟩ := C104_event hk hpage h2 q1 q2
    have g1 : s'.linkMap = libsAfter p.libs (ops ++ [op]) := by rw [f1, e1, libsAfter_snoc]
    have g2 : s'.filter = filterAfter (ops ++ [op]) := by
      rw [f2, e2, filterAfter, filterAfter, List.foldl_append]; rfl
    refine ⟨g1, g2, ?_⟩
    intro a
    rw [← f1, ← f2, g1, g2] at f3
    rcases f3 a with h | ⟨h, l, hl⟩
    · rcases e3 a with h' | ⟨h', pre, hp, hl⟩
      · left; rw [h, h', loaderWr_snoc]
      · rw [h'] at h
        cases hb : loaderBit op a true with
        | true => exact Or.inr ⟨h.trans hb, pre, hp.trans (List.prefix_append _ _), hl⟩
        | false => left; rw [h, hb, loaderWr_snoc, loaderBit_false hb]
    · exact Or.inr ⟨h, _, List.prefix_refl _, l, hl⟩

end

/-- C104: GOTCHA takes no permission away: what is writable stays so until the loader says otherwise. -/
theorem C104_never_restored {env : Env} (ops : List Op) (a : Addr)
    (hl : ∀ op ∈ ops, loaderBit op a true = true) :
    ∀ {s s' : State} {os}, run env ops s = .ok (s', os) → s.wr a = true → s'.wr a = true := by
  induction ops using List.reverseRecOn with
  | nil => intro s s' os hr h; cases hr; exact h
  | append_singleton ops op ih =>
    intro s s' os hr h
    obtain ⟨s1, os1, o, h1, h2, -⟩ := run_last hr
    have h3 := ih (fun x hx => hl x (List.mem_append_left _ hx)) h1 h
    refine stepOp_shut (J := fun t => t.2.2.1 a = true) ⟨?_, ?_⟩ h2 ?_
    · intro X l Y F w m rs r hw _ _ _ _
      dsimp only at hw ⊢
      split
      · rfl
      · exact hw
    · intro L F w m b v hw _
      exact hw
    · show (loaderPart s1 op).wr a = true
      rw [loaderPart_wr, h3]
      exact hl op (by simp)

/-- C104: a word GOTCHA has patched is on a writable page for the rest of the run: RELRO is off for good (as
long as the loader does not put new pages there). -/
theorem C104_patched_words_stay_writable {p : Process} (ops : List Op) (a : Addr)
    (hl : ∀ op ∈ ops, loaderBit op a true = true) :
    ∀ {s os}, run p.env ops p.start = .ok (s, os) → s.mem a ≠ loaderMem p.mem ops a → s.wr a = true := by
  induction ops using List.reverseRecOn with
  | nil => intro s os hr h; cases hr; exact absurd rfl h
  | append_singleton ops op ih =>
    intro s' os' hr h
    obtain ⟨s, os, o, h1, h2, -⟩ := run_last hr
    have hw := ih (fun x hx => hl x (List.mem_append_left _ hx)) h1
    have hl' := hl op (by simp)
    have key : s'.mem a = loaderWord op a (s.mem a) ∨ s'.wr a = true := by
      refine stepOp_shut (J := fun t => t.2.2.2 a = loaderWord op a (s.mem a) ∨ t.2.2.1 a = true)
        ⟨?_, ?_⟩ h2 (Or.inl (loaderPart_mem s op a))
      · intro X l Y F w m rs r hw _ _ _ _
        dsimp only at hw ⊢
        rcases hw with hw | hw
        · exact Or.inl hw
        · right; split
          · rfl
          · exact hw
      · intro L F w m b v hw hb
        dsimp only at hw ⊢
        rcases hw with hw | hw
        · by_cases hab : a = b
          · subst hab; exact Or.inr hb
          · left; rw [if_neg hab]; exact hw
        · exact Or.inr hw
    rcases key with hk | hk
    · by_cases hs : s.mem a = loaderMem p.mem ops a
      · exact absurd (by rw [hk, hs]; simp [loaderMem, List.foldl_append]) h
      · exact C104_never_restored (env := p.env) [op] a (by simpa using hl') (s := s) (s' := s') (os := [o]) (by
          simp only [run, h2, bind, Except.bind]) (hw hs)
    · exact hk

/-! ### Execute permission -/

theorem protect_w (ok) (rs : List (Addr × BitVec 64)) : ∀ (pm : Addr → Perm) (a : Addr),
    (rs.foldl (protect ok) pm) a =
      if ∃ r ∈ rs, ok r = true ∧ inRange a r then wanted else pm a := by
  induction rs with
  | nil => intro pm a; simp
  | cons r rs ih =>
    intro pm a
    rw [List.foldl_cons, ih]
    by_cases h1 : ∃ r' ∈ rs, ok r' = true ∧ inRange a r'
    · rw [if_pos h1, if_pos]
      obtain ⟨r', h, h'⟩ := h1
      exact ⟨r', List.mem_cons_of_mem _ h, h'⟩
    · rw [if_neg h1]
      unfold protect
      by_cases h2 : ok r = true
      · rw [if_pos h2]
        by_cases h3 : inRange a r
        · simp only [h3, if_true]
          rw [if_pos ⟨r, by simp, h2, h3⟩]
        · simp only [h3, if_false]
          rw [if_neg]
          rintro ⟨r', h, h4, h5⟩
          rcases List.mem_cons.1 h with rfl | h
          · exact h3 h5
          · exact h1 ⟨r', h, h4, h5⟩
      · rw [if_neg h2, if_neg]
        rintro ⟨r', h, h4, h5⟩
        rcases List.mem_cons.1 h with rfl | h
        · exact h2 h4
        · exact h1 ⟨r', h, h4, h5⟩

theorem unprotect_wr (env : Env) (rs : List (Addr × BitVec 64)) : ∀ (s : State) (a : Addr),
    (rs.foldl (State.unprotect env) s).wr a =
      if ∃ r ∈ rs, env.mprotect r = true ∧ inRange a r then true else s.wr a := by
  induction rs with
  | nil => intro s a; simp
  | cons r rs ih =>
    intro s a
    rw [List.foldl_cons, ih]
    by_cases h1 : ∃ r' ∈ rs, env.mprotect r' = true ∧ inRange a r'
    · rw [if_pos h1, if_pos]
      obtain ⟨r', h, h'⟩ := h1
      exact ⟨r', List.mem_cons_of_mem _ h, h'⟩
    · rw [if_neg h1]
      unfold State.unprotect
      by_cases h2 : env.mprotect r = true
      · rw [if_pos h2]
        by_cases h3 : inRange a r
        · simp only [h3, if_true]
          rw [if_pos ⟨r, by simp, h2, h3⟩]
        · simp only [h3, if_false]
          rw [if_neg]
          rintro ⟨r', h, h4, h5⟩
          rcases List.mem_cons.1 h with rfl | h
          · exact h3 h5
          · exact h1 ⟨r', h, h4, h5⟩
      · rw [if_neg h2, if_neg]
        rintro ⟨r', h, h4, h5⟩
        rcases List.mem_cons.1 h with rfl | h
        · exact h2 h4
        · exact h1 ⟨r', h, h4, h5⟩

/-- C104: the engine's record of what is writable is the write permission. -/
theorem C104_write_bit {env : Env} {s s' : State} {l : Lib} {pm pm' : Addr → Perm}
    (hs : ∀ a, s.wr a = (pm a).w) (h : s.markGotWritable env l = .ok s')
    (h' : markPerms (BitVec.ofNat 64 env.page) env.mprotect s.linkMap l pm = .ok pm') :
    ∀ a, s'.wr a = (pm' a).w := by
  intro a
  unfold State.markGotWritable at h
  unfold markPerms at h'
  cases hm : markCalls (BitVec.ofNat 64 env.page) s.linkMap l with
  | error f => rw [hm] at h; cases h
  | ok rs =>
    rw [hm] at h h'
    cases h
    cases h'
    rw [unprotect_wr, protect_w]
    split
    · rfl
    · exact hs a

/-- C104: for a library with a PLT GOT and a RELRO segment, all of that segment and the page of the PLT GOT become
readable, writable and executable at once: the wish that no page is both writable and executable fails. -/
theorem C104_writable_and_executable {k : Nat} {objs : List Lib} {lib : Lib} {l : List (Nat × Addr)} {g : Addr}
    {p : Phdr} (hk : k < 64) (hd : DynSection lib.img l) (he : EntOk l) (hg : tagVal l Tag.PLTGOT = some g)
    (hg0 : g ≠ 0) (hin : lib ∈ objs) (hpl : Placed objs)
    (hload : ∃ q ∈ lib.phdrs, q.type = 1) (hp : p ∈ lib.phdrs) (hpt : p.type = 0x6474e552)
    (honly : ∀ q ∈ lib.phdrs, q.type = 0x6474e552 → q = p) (hz : Sized k lib)
    {ok : Addr × BitVec 64 → Bool} (hok : ∀ r, ok r = true) (pm : Addr → Perm) :
    ∃ pm', markPerms (BitVec.ofNat 64 (2 ^ k)) ok objs lib pm = .ok pm' ∧
      (∀ a : Addr, ((lib.addr.toNat + p.vaddr.toNat ≤ a.toNat ∧
          a.toNat < lib.addr.toNat + p.vaddr.toNat + p.memsz.toNat) ∨
        a.toNat / 2 ^ k = g.toNat / 2 ^ k) → pm' a = ⟨true, true, true⟩) ∧
      ∀ a, pm' a ≠ pm a → pm' a = ⟨true, true, true⟩ ∧ (OnRelro k lib a ∨ OnGot k lib a) := by
  have hsz : g.toNat + ((tagVal l Tag.RELSZ).getD 0).toNat % 2 ^ 32 + 2 * 2 ^ k ≤ 2 ^ 64 := by
    rcases hz.dyn with h | ⟨l', h1, -, h3⟩
    · obtain ⟨-, v, rest, h'⟩ := hd
      rw [h] at h'; cases h'
    · have : l' = l := dynSection_unique h1 hd
      subst this
      exact h3 g hg
  obtain ⟨rs, h1, -, h3⟩ := C53_library hk hd he hg hg0 hin
    (fun o ho hs => hpl lib hin o ho hs.1.symm hs.2.symm) hload hp hpt honly (hz.relro p hp hpt).1
    (hz.relro p hp hpt).2 hsz
  refine ⟨rs.foldl (protect ok) pm, by unfold markPerms; rw [h1], ?_, ?_⟩
  · intro a ha
    obtain ⟨r, hr, hw⟩ := h3 a.toNat ha
    rw [protect_w, if_pos ⟨r, hr, hok r, hw⟩]
    rfl
  · intro a ha
    rw [protect_w] at ha ⊢
    split at ha
    · rename_i hex
      rw [if_pos hex]
      obtain ⟨r, hr, -, hi⟩ := hex
      exact ⟨rfl, call_region hk hpl hin hz h1 hr hi⟩
    · exact absurd rfl ha

/-! ### Examples -/

open Gotcha.Demo in
theorem sized_img {exps rels} {g lm addr : Addr} {name : Option Name} (hg : g.toNat + 8192 ≤ 2 ^ 64)
    {ph : List Phdr} (hph : ∀ p ∈ ph, p.type = 0x6474e552 → 0 < p.memsz.toNat ∧
      addr.toNat + p.vaddr.toNat + p.memsz.toNat + 2 ^ 12 ≤ 2 ^ 64) :
    Sized 12 { lm, name, addr, ld := addr, img := Demo.img exps rels g, phdrs := ph } := by
  refine ⟨hph, Or.inr ?_⟩
  refine ⟨[(DT_SYMTAB, S), (DT_STRTAB, T), (DT_HASH, H), (DT_JMPREL, J),
    (DT_PLTRELSZ, BitVec.ofNat 64 (24 * rels.length)), (DT_PLTREL, 7), (DT_PLTGOT, g)],
    ⟨?_, 0, [], rfl⟩, ?_, ?_⟩
  · intro e he
    simp only [List.mem_cons, List.not_mem_nil, or_false] at he
    rcases he with rfl | rfl | rfl | rfl | rfl | rfl | rfl <;> simp [DT_SYMTAB, DT_STRTAB, DT_HASH, DT_JMPREL,
      DT_PLTRELSZ, DT_PLTREL, DT_PLTGOT]
  · rintro t (rfl | rfl) v h <;> cases h
  · intro g' h
    cases h
    show g.toNat + 0 % 2 ^ 32 + 2 * 2 ^ 12 ≤ 2 ^ 64
    omega

namespace Ex104
open Demo

theorem demo_sized (l : Lib) (h : l ∈ [app, libc, plug]) : Sized 12 l := by
  simp only [List.mem_cons, List.not_mem_nil, or_false] at h
  have hph : ∀ {addr : Addr}, ∀ p ∈ [(⟨PT_LOAD, 0, 0x100000⟩ : Phdr)], p.type = 0x6474e552 → 0 < p.memsz.toNat ∧
      addr.toNat + p.vaddr.toNat + p.memsz.toNat + 2 ^ 12 ≤ 2 ^ 64 := by
    intro addr p hp ht
    rw [List.mem_singleton.1 hp] at ht
    exact absurd ht (by decide)
  rcases h with rfl | rfl | rfl
  · exact sized_img (by decide) hph
  · exact sized_img (by decide) hph
  · exact sized_img (by decide) hph

theorem off_pages (l : Lib) (h : l ∈ [app, libc, plug]) (a : Addr)
    (ha : ∀ g ∈ [0x10000, 0x20000, 0x30000], a.toNat / 2 ^ 12 ≠ g) : ¬ (OnRelro 12 l a ∨ OnGot 12 l a) := by
  have key : ∀ {exps rels} {g : Addr} {l : Lib}, l.img = Demo.img exps rels g →
      l.phdrs = [⟨PT_LOAD, 0, 0x100000⟩] → a.toNat / 2 ^ 12 ≠ g.toNat / 2 ^ 12 →
      ¬ (OnRelro 12 l a ∨ OnGot 12 l a) := by
    intro exps rels g l hi hph hne
    rintro (⟨p, hp, ht, -⟩ | ⟨tags, g', hd, hg, -, h1, h2⟩)
    · rw [hph] at hp
      rw [List.mem_singleton.1 hp] at ht
      exact absurd ht (by decide)
    · rw [hi] at hd
      obtain ⟨tags', hd', -, hi⟩ := info_section (exps := exps) (rels := rels) (g := g)
      have := dynSection_unique hd hd'
      subst this
      have q1 : g = g' := by
        have := congrArg DynInfo.got hi
        simpa [info, sectionInfo, hg] using this
      have q2 : ((tagVal tags Tag.RELSZ).getD 0).toNat % 2 ^ 32 = 0 := by
        have := congrArg (fun d => d.relSize.toNat) hi
        simp only [info, sectionInfo] at this
        rw [BitVec.toNat_setWidth] at this
        exact this.symm
      rw [q2] at h2
      subst q1
      rcases h2 with h2 | h2
      · exact hne h2
      · omega
  simp only [List.mem_cons, List.not_mem_nil, or_false] at h
  rcases h with rfl | rfl | rfl
  · exact key rfl rfl (ha 0x10000 (by simp))
  · exact key rfl rfl (ha 0x20000 (by simp))
  · exact key rfl rfl (ha 0x30000 (by simp))

theorem demo_placed : Placed [app, libc, plug] := by
  intro l hl o ho hn _
  simp only [List.mem_cons, List.not_mem_nil, or_false] at hl ho
  rcases hl with rfl | rfl | rfl <;> rcases ho with rfl | rfl | rfl <;> first
    | rfl
    | exact absurd hn (by decide +kernel)

theorem demo_libs (pre : List Op) (h : pre <+: ops.take 4) : libsAfter proc.libs pre <+: [app, libc, plug] := by
  obtain ⟨n, rfl⟩ : ∃ n, pre = (ops.take 4).take n := ⟨pre.length, (List.prefix_iff_eq_take.1 h)⟩
  rcases n with _ | _ | _ | _ | n
  · exact ⟨[plug], rfl⟩
  · exact ⟨[plug], rfl⟩
  · exact ⟨[plug], rfl⟩
  · exact ⟨[plug], rfl⟩
  · exact ⟨[], by simp [ops, List.take]; rfl⟩

/-- In the demo process, where every GOT starts read-only, after two registrations and a dlopen of a plugin:
the slot of foo in the application is writable, and stays so; nothing beyond the three GOT pages is. -/
example : ∃ s os, run proc.env (ops.take 4) proc.start = .ok (s, os) ∧ s.wr 0x10000018 = true ∧
    proc.wr 0x10000018 = false ∧ s.wr 0x10001018 = false ∧ s.wr 0x20004000 = false := by
  obtain ⟨s, os, hr⟩ : ∃ s os, run proc.env (ops.take 4) proc.start = .ok (s, os) := by
    obtain ⟨s, h, -⟩ := history_run proc_ok (prefix_history True 4)
    exact ⟨s, _, h⟩
  have hh := (C104_only_library_pages (k := 12) (by decide) (p := proc) rfl (ops.take 4)
    (fun pre hp => ⟨fun l hl o ho => demo_placed l ((demo_libs pre hp).subset hl) o ((demo_libs pre hp).subset ho),
      fun l hl => demo_sized l ((demo_libs pre hp).subset hl)⟩) hr).2.2
  refine ⟨s, os, hr, ?_, rfl, ?_, ?_⟩
  · refine C104_patched_words_stay_writable (ops.take 4) 0x10000018 ?_ hr ?_
    · decide +kernel
    · have hk : (match run proc.env (ops.take 4) proc.start with
        | .ok (s, _) => decide (s.mem 0x10000018 ≠ loaderMem proc.mem (ops.take 4) 0x10000018)
        | .error _ => false) = true := by decide +kernel
      rw [hr] at hk
      simpa using hk
  · rcases hh 0x10001018 with h | ⟨-, pre, hp, l, ⟨X, Y, e, -⟩, hl⟩
    · rw [h]; decide +kernel
    · exact absurd hl (off_pages l ((demo_libs pre hp).subset (by rw [e]; simp)) _ (by decide))
  · rcases hh 0x20004000 with h | ⟨-, pre, hp, l, ⟨X, Y, e, -⟩, hl⟩
    · rw [h]; decide +kernel
    · exact absurd hl (off_pages l ((demo_libs pre hp).subset (by rw [e]; simp)) _ (by decide))

/-- A library with a RELRO segment of 0x200 bytes and its PLT GOT in the page after it. -/
def hardLib : Lib where
  lm := 0x4000
  name := some (nm "libx.so")
  addr := 0x40000000
  ld := 0x40000000
  img := Demo.img [] [(0x3018, nm "foo")] 0x40003000
  phdrs := [⟨1, 0, 0x4000⟩, ⟨0x6474e552, 0x2e00, 0x200⟩]

/-- Read-only data becomes writable and executable. -/
example : ∃ pm, markPerms 4096 (fun _ => true) [app, hardLib] hardLib (fun _ => ⟨true, false, false⟩) = .ok pm ∧
    pm 0x40002e10 = ⟨true, true, true⟩ ∧ pm 0x40003018 = ⟨true, true, true⟩ ∧
    pm 0x40001000 = ⟨true, false, false⟩ ∧ pm 0x10000018 = ⟨true, false, false⟩ := by
  obtain ⟨l, hd, he, hi⟩ := info_section (exps := []) (rels := [(0x3018, nm "foo")]) (g := 0x40003000)
  have hg : tagVal l Tag.PLTGOT = some 0x40003000 := by
    have := congrArg DynInfo.got hi
    simp only [info, sectionInfo] at this
    cases hx : tagVal l Tag.PLTGOT with
    | none => rw [hx] at this; exact absurd this (by decide)
    | some v => rw [hx] at this; rw [this]; rfl
  have hsz : Sized 12 hardLib := sized_img (by decide) (by
    intro p hp ht
    simp only [List.mem_cons, List.not_mem_nil, or_false] at hp
    rcases hp with rfl | rfl
    · exact absurd ht (by decide)
    · decide)
  obtain ⟨pm, h1, h2, h3⟩ := C104_writable_and_executable (k := 12) (objs := [app, hardLib]) (lib := hardLib)
    (p := ⟨0x6474e552, 0x2e00, 0x200⟩) (by decide) hd he hg (by decide) (by simp)
    (by
      intro l hl o ho hn _
      simp only [List.mem_cons, List.not_mem_nil, or_false] at hl ho
      rcases hl with rfl | rfl <;> rcases ho with rfl | rfl <;> first
        | rfl
        | exact absurd hn (by decide +kernel))
    ⟨⟨1, 0, 0x4000⟩, by simp [hardLib], rfl⟩ (by simp [hardLib]) rfl
    (by
      intro q hq ht
      simp only [hardLib, List.mem_cons, List.not_mem_nil, or_false] at hq
      rcases hq with rfl | rfl
      · exact absurd ht (by decide)
      · rfl) hsz (ok := fun _ => true) (fun _ => rfl) (fun _ => ⟨true, false, false⟩)
  have hoff : ∀ a : Addr, a.toNat / 2 ^ 12 ≠ 0x40002 → a.toNat / 2 ^ 12 ≠ 0x40003 →
      pm a = ⟨true, false, false⟩ := by
    intro a n1 n2
    by_contra hne
    rcases (h3 a hne).2 with ⟨p, hp, ht, x, x1, x2, x3⟩ | ⟨tags, g', hd', hg', -, y1, y2⟩
    · simp only [hardLib, List.mem_cons, List.not_mem_nil, or_false] at hp
      rcases hp with rfl | rfl
      · exact absurd ht (by decide)
      · have e1 : hardLib.addr.toNat + (0x2e00 : Addr).toNat = 0x40002e00 := by decide
        have e2 : (0x200 : BitVec 64).toNat = 0x200 := by decide
        rw [e1] at x1 x2
        rw [e2] at x2
        omega
    · have := dynSection_unique hd' hd
      subst this
      rw [hg] at hg'
      cases hg'
      have q2 : ((tagVal tags Tag.RELSZ).getD 0).toNat % 2 ^ 32 = 0 := by
        have := congrArg (fun d => d.relSize.toNat) hi
        simp only [info, sectionInfo] at this
        rw [BitVec.toNat_setWidth] at this
        exact this.symm
      rw [q2] at y2
      have e1 : (0x40003000 : Addr).toNat = 0x40003000 := by decide
      rw [e1] at y1 y2
      omega
  exact ⟨pm, h1, h2 _ (Or.inl (by decide)), h2 _ (Or.inr (by decide)), hoff _ (by decide) (by decide),
    hoff _ (by decide) (by decide)⟩

/-- Not vacuous: `C104_write_bit` for the application of the demo, whose GOT is read-only at the start. -/
example : ∃ s' pm', proc.start.markGotWritable proc.env app = .ok s' ∧
    markPerms (BitVec.ofNat 64 proc.env.page) proc.env.mprotect proc.start.linkMap app
      (fun a => ⟨true, proc.start.wr a, false⟩) = .ok pm' ∧ s'.wr 0x10000018 = true ∧ ∀ a, s'.wr a = (pm' a).w := by
  have h1 : (match proc.start.markGotWritable proc.env app with
    | .ok s' => s'.wr 0x10000018
    | .error _ => false) = true := by decide +kernel
  have h2 : (match markPerms (BitVec.ofNat 64 proc.env.page) proc.env.mprotect proc.start.linkMap app
      (fun a => ⟨true, proc.start.wr a, false⟩) with
    | .ok _ => true
    | .error _ => false) = true := by decide +kernel
  split at h1
  · rename_i s' e1
    split at h2
    · rename_i pm' e2
      exact ⟨s', pm', e1, e2, h1, C104_write_bit (fun _ => rfl) e1 e2⟩
    · cases h2
  · cases h1

end Ex104

end Gotcha.Props
