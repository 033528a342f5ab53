import Verif.Model.Hammer
import Verif.Proof.Tests
import Verif.Demo.Hammer
/-
C117: the test hammer, of any size.
-/
namespace Gotcha
open Spec Tests

theorem mem_pairs {Y X a b : Nat} : (a, b) ∈ pairs Y X ↔ a ≤ Y ∧ b ≤ X := by
  simp only [pairs, List.mem_flatMap, List.mem_range, List.mem_map, Prod.mk.injEq]
  constructor
  · rintro ⟨a', ha, b', hb, rfl, rfl⟩
    omega
  · rintro ⟨h1, h2⟩
    exact ⟨a, by omega, b, by omega, rfl, rfl⟩

theorem pairs_nodup (Y X : Nat) : (pairs Y X).Nodup := by
  unfold pairs
  rw [List.nodup_flatMap]
  refine ⟨fun a _ => List.nodup_range.map (fun b b' h => by simpa using h), ?_⟩
  refine List.nodup_range.imp_of_mem ?_
  intro a a' _ _ hne x h1 h2
  simp only [List.mem_map] at h1 h2
  obtain ⟨b, -, rfl⟩ := h1
  obtain ⟨b', -, e⟩ := h2
  simp only [Prod.mk.injEq] at e
  exact hne e.1.symm

/-- The bindings of one name in a table with distinct names. -/
theorem filter_one {α β : Type} [DecidableEq β] {g : α → β} {L : List α} (hn : L.Nodup) {a : α} (ha : a ∈ L)
    (inj : ∀ b ∈ L, g b = g a → b = a) : L.filter (fun b => g b = g a) = [a] := by
  induction L with
  | nil => cases ha
  | cons c L ih =>
    obtain ⟨h1, h2⟩ := List.nodup_cons.1 hn
    by_cases e : c = a
    · subst e
      rw [List.filter_cons_of_pos (by simp)]
      congr 1
      rw [List.filter_eq_nil_iff]
      intro b hb hc
      have := inj b (by simp [hb]) (by simpa using hc)
      exact h1 (this ▸ hb)
    · rw [List.filter_cons_of_neg (by
        intro hc
        exact e (inj c (by simp) (by simpa using hc)))]
      exact ih h2 (by rcases List.mem_cons.1 ha with h | h; exact absurd h.symm e; exact h)
        (fun b hb => inj b (List.mem_cons_of_mem _ hb))

/-- The functions and wrappers of one kind. -/
structure InfoOk (i : Info) (Y X : Nat) : Prop where
  inj : ∀ a b a' b', a ≤ Y → b ≤ X → a' ≤ Y → b' ≤ X → i.name a' b' = i.name a b → a' = a ∧ b' = b
  own : ∀ a b, a ≤ Y → b ≤ X → i.name a b ∉ ownNames

theorem frames_of {i : Info} {Y X : Nat} (ok : InfoOk i Y X) {tool : String} {a b : Nat} (ha : a ≤ Y) (hb : b ≤ X) :
    clientFrames [i.dowrap Y X tool] (i.name a b) = [⟨nm tool, i.wrapper a b, i.handle a b⟩] := by
  have := filter_one (g := fun q : Nat × Nat => i.name q.1 q.2) (pairs_nodup Y X) (mem_pairs.2 ⟨ha, hb⟩) (by
    rintro ⟨a', b'⟩ hq e
    obtain ⟨h1, h2⟩ := mem_pairs.1 hq
    obtain ⟨rfl, rfl⟩ := ok.inj a b a' b' ha hb h1 h2 e
    rfl)
  simp only [clientFrames, Info.dowrap, Info.table, List.flatMap_cons, List.flatMap_nil, List.append_nil,
    List.filter_map, Function.comp_def]
  rw [this]
  rfl

theorem frames_other {i : Info} {Y X : Nat} {tool : String} {f : Name}
    (h : ∀ a b, a ≤ Y → b ≤ X → i.name a b ≠ f) : clientFrames [i.dowrap Y X tool] f = [] := by
  simp only [clientFrames, Info.dowrap, Info.table, List.flatMap_cons, List.flatMap_nil, List.append_nil,
    List.map_eq_nil_iff, List.filter_eq_nil_iff, List.mem_map, decide_eq_true_eq]
  rintro u ⟨q, hq, rfl⟩
  obtain ⟨h1, h2⟩ := mem_pairs.1 (show (q.1, q.2) ∈ pairs Y X from hq)
  exact h _ _ h1 h2

/-- Calls through a slot give `v`, and leave things as they are. -/
def Gives {S : Type} (M : Sem S) (code : Addr → Int → Prog Int) (s : S) (q : Lib × Addr) (v : Int) : Prop :=
  ∃ a, M.goto s (.slot q.1 q.2) a ∧ Eval M code s (code a 0) [] v s

theorem Gives.eval {S : Type} {M : Sem S} {code : Addr → Int → Prog Int} {s s' : S} {q : Lib × Addr} {v : Int}
    (h : Gives M code s q v) {k : Int → Prog Int} {t w} (hk : Eval M code s (k v) t w s') :
    Eval M code s (.call (.slot q.1 q.2) 0 k) t w s' := by
  obtain ⟨a, h1, h2⟩ := h
  exact .call (t1 := []) h1 h2 hk

theorem multCheck_eval {S : Type} {M : Sem S} {code : Addr → Int → Prog Int} {s s' : S}
    {slot : Nat → Nat → Lib × Addr} {A : Nat} {isNeg : Bool} : ∀ (B : Nat) {k : Bool → Prog Int} {t w},
    (∀ b ≤ B, Gives M code s (slot A b) (A * b * sign isNeg)) → Eval M code s (k true) t w s' →
    Eval M code s (multCheck slot A isNeg B k) t w s'
  | 0, k, t, w, h, hk => by
    rw [multCheck]
    refine (h 0 (Nat.le_refl 0)).eval ?_
    simpa using hk
  | B + 1, k, t, w, h, hk => by
    rw [multCheck]
    refine multCheck_eval B (fun b hb => h b (by omega)) ?_
    rw [if_pos rfl]
    refine (h (B + 1) (Nat.le_refl _)).eval ?_
    simpa using hk

theorem addCheck_eval {S : Type} {M : Sem S} {code : Addr → Int → Prog Int} {s s' : S}
    {slot : Nat → Nat → Lib × Addr} {X : Nat} {isNeg : Bool} : ∀ (A B : Nat) {k : Bool → Prog Int} {t w},
    B ≤ X → (∀ a ≤ A, ∀ b ≤ X, Gives M code s (slot a b) ((a + b) * sign isNeg)) → Eval M code s (k true) t w s' →
    Eval M code s (addCheck slot X isNeg A B k) t w s'
  | 0, 0, k, t, w, hB, h, hk => by
    rw [addCheck]
    refine (h 0 (Nat.le_refl 0) 0 hB).eval ?_
    simpa using hk
  | A + 1, 0, k, t, w, hB, h, hk => by
    rw [addCheck]
    refine addCheck_eval A X (Nat.le_refl X) (fun a ha => h a (by omega)) ?_
    rw [if_pos rfl]
    refine (h (A + 1) (Nat.le_refl _) 0 hB).eval ?_
    simpa using hk
  | A, B + 1, k, t, w, hB, h, hk => by
    rw [addCheck]
    refine addCheck_eval A B (by omega) h ?_
    rw [if_pos rfl]
    refine (h A (Nat.le_refl _) (B + 1) hB).eval ?_
    simpa using hk
termination_by A B => (A, B)

theorem validate_eval {S : Type} {M : Sem S} {code : Addr → Int → Prog Int} {s s' : S} {α : Type}
    {c : α → (Bool → Prog Int) → Prog Int} {k : Bool → Prog Int} {t w} (hk : Eval M code s (k true) t w s') :
    ∀ (L : List α), (∀ r ∈ L, ∀ {k : Bool → Prog Int} {t w}, Eval M code s (k true) t w s' →
      Eval M code s (c r k) t w s') → Eval M code s (validate (L.map c) k) t w s'
  | [], _ => hk
  | r :: L, h => by
    rw [List.map_cons, validate]
    refine h r (by simp) ?_
    rw [if_pos rfl]
    exact validate_eval hk L fun r' hr' => h r' (List.mem_cons_of_mem _ hr')

/-- A slot of a loaded object for the function `i.name a b`, bound to it. -/
def SlotFor (p : Process) (good : Lib → Prop) (i : Info) (real : Nat → Nat → Addr) (q : Lib × Addr) (a b : Nat) :
    Prop :=
  q.1 ∈ p.libs ∧ good q.1 ∧ (q.2, i.name a b) ∈ rlOf q.1 ∧ p.mem (q.1.addr + q.2) = real a b

/-- C117.  The test hammer, with any X and Y, any number of libraries, in any order: it ends with 0. -/
theorem C117_hammer {p : Process} (ok : p.Ok) {good : Lib → Prop} {Y X : Nat} {multinfo addinfo : Info}
    (h : HistoryFor p True good [multinfo.dowrap Y X "Multiplies", addinfo.dowrap Y X "Additions"])
    (okM : InfoOk multinfo Y X) (okA : InfoOk addinfo Y X)
    (apart : ∀ a b a' b', a ≤ Y → b ≤ X → a' ≤ Y → b' ≤ X → multinfo.name a b ≠ addinfo.name a' b')
    {realM realA : Nat → Nat → Addr}
    (defM : ∀ a b, a ≤ Y → b ≤ X → firstDef (p.env.vdsoOf p.libs) p.libs (multinfo.name a b) = some (realM a b))
    (defA : ∀ a b, a ≤ Y → b ≤ X → firstDef (p.env.vdsoOf p.libs) p.libs (addinfo.name a b) = some (realA a b))
    {mults adds : List Ref} (hm : ∀ r ∈ mults, r.y ≤ Y ∧ r.x ≤ X ∧
      ∀ b ≤ r.x, SlotFor p good multinfo realM (r.mult r.y b) r.y b)
    (ha : ∀ r ∈ adds, ∀ a ≤ Y, ∀ b ≤ X, SlotFor p good addinfo realA (r.add a b) a b)
    {code : Addr → Int → Prog Int} (cM : ∀ a b, a ≤ Y → b ≤ X → code (realM a b) = multMath a b)
    (cA : ∀ a b, a ≤ Y → b ≤ X → code (realA a b) = addMath a b)
    (cMw : ∀ a b, a ≤ Y → b ≤ X → code (multinfo.wrapper a b) = negMath (multinfo.handle a b))
    (cAw : ∀ a b, a ≤ Y → b ≤ X → code (addinfo.wrapper a b) = negMath (addinfo.handle a b)) :
    ∃ s', ∀ t v s'', Eval (machine p.env) code p.start (hammerMain multinfo addinfo Y X mults adds) t v s'' ↔
      t = [] ∧ v = 0 ∧ s'' = s' := by
  have quiet : ∀ {ops : List Op}, ops <+: [multinfo.dowrap Y X "Multiplies", addinfo.dowrap Y X "Additions"] →
      ∀ op ∈ ops, ∀ L, loadStep L op = L := by
    intro ops hp op ho L
    have := hp.subset ho
    simp only [List.mem_cons, List.not_mem_nil, or_false] at this
    rcases this with rfl | rfl <;> rfl
  -- a function that is not wrapped
  have plain : ∀ {i : Info} {real : Nat → Nat → Addr} {q : Lib × Addr} {a b : Nat} {v : Int} {ops : List Op},
      ops <+: [multinfo.dowrap Y X "Multiplies", addinfo.dowrap Y X "Additions"] →
      i.name a b ∉ ownNames → SlotFor p good i real q a b → clientFrames ops (i.name a b) = [] →
      (code (real a b) 0 = .ret v) → Gives (ideal p good (stackOf p)) code ops q (v * sign false) := by
    intro i real q a b v ops hp hown hs hc hr
    obtain ⟨h1, h2, h3, h4⟩ := hs
    refine ⟨real a b, .plain ⟨?_, h2⟩ h3 (stackOf_none hown hc) ?_, ?_⟩
    · rw [libsAfter_quiet (quiet hp)]; exact h1
    · rw [← h4]
      refine .start h1 ?_ hown
      intro dead hd
      have := hp.subset hd
      simp [Info.dowrap] at this
    · rw [hr, sign, if_neg (by simp), Int.mul_one]
      exact .ret
  -- a function that is
  have wrapped : ∀ {i : Info} {tool : String} {real : Nat → Nat → Addr} {q : Lib × Addr} {a b : Nat} {v : Int}
      {ops more : List Op}, ops ++ more <+: [multinfo.dowrap Y X "Multiplies", addinfo.dowrap Y X "Additions"] →
      i.name a b ∉ ownNames → SlotFor p good i real q a b →
      clientFrames ops (i.name a b) ≠ [] →
      clientFrames (ops ++ more) (i.name a b) = [⟨nm tool, i.wrapper a b, i.handle a b⟩] →
      firstDef (vdsoAfter p.env p.libs (ops ++ more)) p.libs (i.name a b) = some (real a b) →
      (code (real a b) 0 = .ret v) → code (i.wrapper a b) = negMath (i.handle a b) →
      Gives (ideal p good (stackOf p)) code (ops ++ more) q (v * sign true) := by
    intro i tool real q a b v ops more hp hown hs hc0 hc hd hr hw
    obtain ⟨h1, h2, h3, h4⟩ := hs
    have hst := stackOf_one (p := p) hown hc
    have hl : q.1 ∈ libsAfter p.libs (ops ++ more) := by rw [libsAfter_quiet (quiet hp)]; exact h1
    refine ⟨i.wrapper a b, .wrapped ⟨hl, h2⟩ h3 hst, ?_⟩
    rw [hw, negMath]
    refine .look (a := real a b) (.last (pre := []) hst ?_) ?_
    · exact real_first hown (quiet ((List.prefix_append _ _).trans hp)) hc0 more hd
    · refine Eval.call (t1 := []) (t2 := []) (w := v) .fixed (by rw [hr]; exact .ret) ?_
      exact .ret
  have p0 : [] <+: [multinfo.dowrap Y X "Multiplies", addinfo.dowrap Y X "Additions"] := List.nil_prefix
  have p1 : [multinfo.dowrap Y X "Multiplies"] <+:
      [multinfo.dowrap Y X "Multiplies", addinfo.dowrap Y X "Additions"] := ⟨[_], rfl⟩
  have p2 := List.prefix_refl [multinfo.dowrap Y X "Multiplies", addinfo.dowrap Y X "Additions"]
  have two : ∀ f, clientFrames [multinfo.dowrap Y X "Multiplies", addinfo.dowrap Y X "Additions"] f =
      clientFrames [multinfo.dowrap Y X "Multiplies"] f ++ clientFrames [addinfo.dowrap Y X "Additions"] f := by
    intro f; simp [clientFrames]
  have m0 : ∀ r ∈ mults, ∀ b ≤ r.x, Gives (ideal p good (stackOf p)) code [] (r.mult r.y b)
      (r.y * b * sign false) := fun r hr b hb => by
    obtain ⟨h1, h2, h3⟩ := hm r hr
    exact plain p0 (okM.own _ _ h1 (by omega)) (h3 b hb) rfl (by rw [cM _ _ h1 (by omega)]; rfl)
  have m1 : ∀ r ∈ mults, ∀ b ≤ r.x, Gives (ideal p good (stackOf p)) code [multinfo.dowrap Y X "Multiplies"]
      (r.mult r.y b) (r.y * b * sign true) := fun r hr b hb => by
    obtain ⟨h1, h2, h3⟩ := hm r hr
    have hf := frames_of okM (tool := "Multiplies") h1 (show b ≤ X by omega)
    exact wrapped (ops := [multinfo.dowrap Y X "Multiplies"]) (more := []) p1 (okM.own _ _ h1 (by omega)) (h3 b hb)
      (by rw [hf]; simp) hf (defM _ _ h1 (by omega)) (by rw [cM _ _ h1 (by omega)]; rfl) (cMw _ _ h1 (by omega))
  have m2 : ∀ r ∈ mults, ∀ b ≤ r.x, Gives (ideal p good (stackOf p)) code
      [multinfo.dowrap Y X "Multiplies", addinfo.dowrap Y X "Additions"] (r.mult r.y b) (r.y * b * sign true) :=
    fun r hr b hb => by
    obtain ⟨h1, h2, h3⟩ := hm r hr
    have hf := frames_of okM (tool := "Multiplies") h1 (show b ≤ X by omega)
    exact wrapped (tool := "Multiplies") (ops := [multinfo.dowrap Y X "Multiplies"])
      (more := [addinfo.dowrap Y X "Additions"]) p2 (okM.own _ _ h1 (by omega)) (h3 b hb) (by rw [hf]; simp)
      (by
        rw [List.cons_append, List.nil_append, two, hf,
          frames_other (i := addinfo) (fun a' b' g1 g2 => (apart _ _ _ _ h1 (by omega) g1 g2).symm)]
        rfl)
      (defM _ _ h1 (by omega)) (by rw [cM _ _ h1 (by omega)]; rfl) (cMw _ _ h1 (by omega))
  have a0 : ∀ r ∈ adds, ∀ a ≤ Y, ∀ b ≤ X, Gives (ideal p good (stackOf p)) code [] (r.add a b)
      ((a + b) * sign false) := fun r hr a h1 b h2 =>
    plain p0 (okA.own _ _ h1 h2) (ha r hr a h1 b h2) rfl (by rw [cA _ _ h1 h2]; rfl)
  have a1 : ∀ r ∈ adds, ∀ a ≤ Y, ∀ b ≤ X, Gives (ideal p good (stackOf p)) code [multinfo.dowrap Y X "Multiplies"]
      (r.add a b) ((a + b) * sign false) := fun r hr a h1 b h2 =>
    plain p1 (okA.own _ _ h1 h2) (ha r hr a h1 b h2) (frames_other fun _ _ g1 g2 => apart _ _ _ _ g1 g2 h1 h2)
      (by rw [cA _ _ h1 h2]; rfl)
  have a2 : ∀ r ∈ adds, ∀ a ≤ Y, ∀ b ≤ X, Gives (ideal p good (stackOf p)) code
      [multinfo.dowrap Y X "Multiplies", addinfo.dowrap Y X "Additions"] (r.add a b) ((a + b) * sign true) :=
    fun r hr a h1 b h2 => by
    have hf : clientFrames [multinfo.dowrap Y X "Multiplies", addinfo.dowrap Y X "Additions"] (addinfo.name a b) =
        [⟨nm "Additions", addinfo.wrapper a b, addinfo.handle a b⟩] := by
      rw [two, frames_other (i := multinfo) (fun _ _ g1 g2 => apart _ _ _ _ g1 g2 h1 h2),
        frames_of okA (tool := "Additions") h1 h2]
      rfl
    exact wrapped (ops := [multinfo.dowrap Y X "Multiplies", addinfo.dowrap Y X "Additions"]) (more := []) p2
      (okA.own _ _ h1 h2) (ha r hr a h1 b h2) (by rw [hf]; simp) hf (defA _ _ h1 h2) (by rw [cA _ _ h1 h2]; rfl)
      (cAw _ _ h1 h2)
  have found : ∀ {i : Info} {tool : String} {ops : List Op},
      ops <+: [multinfo.dowrap Y X "Multiplies", addinfo.dowrap Y X "Additions"] →
      (∀ a b, a ≤ Y → b ≤ X → ∃ r, firstDef (p.env.vdsoOf p.libs) p.libs (i.name a b) = some r) →
      vdsoAfter p.env p.libs (ops ++ [i.dowrap Y X tool]) = p.env.vdsoOf p.libs →
      Answered p ops (i.dowrap Y X tool) (.ret .success) := by
    intro i tool ops hp hd hv
    refine found_of ?_
    intro u hu
    obtain ⟨q, hq, rfl⟩ := List.mem_map.1 hu
    obtain ⟨h1, h2⟩ := mem_pairs.1 (show (q.1, q.2) ∈ pairs Y X from hq)
    obtain ⟨r, e⟩ := hd q.1 q.2 h1 h2
    rw [show Op.wrap (i.table Y X) (some (nm tool)) = i.dowrap Y X tool from rfl, hv,
      libsAfter_quiet (quiet hp), e]
    simp
  refine test_run ok h ?_
  unfold hammerMain
  refine validate_eval (c := fun r : Ref => multCheck r.mult r.y false r.x) ?_ mults
    fun r hr k t w hk => multCheck_eval r.x (m0 r hr) hk
  refine validate_eval (c := fun r : Ref => addCheck r.add X false Y X) ?_ adds
    fun r hr k t w hk => addCheck_eval Y X (Nat.le_refl X) (a0 r hr) hk
  refine .event ⟨found p0 (fun a b h1 h2 => ⟨_, defM a b h1 h2⟩) rfl, rfl⟩ ?_
  refine validate_eval (c := fun r : Ref => multCheck r.mult r.y true r.x) ?_ mults
    fun r hr k t w hk => multCheck_eval r.x (m1 r hr) hk
  refine validate_eval (c := fun r : Ref => addCheck r.add X false Y X) ?_ adds
    fun r hr k t w hk => addCheck_eval Y X (Nat.le_refl X) (a1 r hr) hk
  refine .event ⟨found p1 (fun a b h1 h2 => ⟨_, defA a b h1 h2⟩) rfl, rfl⟩ ?_
  refine validate_eval (c := fun r : Ref => multCheck r.mult r.y true r.x) ?_ mults
    fun r hr k t w hk => multCheck_eval r.x (m2 r hr) hk
  refine validate_eval (c := fun r : Ref => addCheck r.add X true Y X) ?_ adds
    fun r hr k t w hk => addCheck_eval Y X (Nat.le_refl X) (a2 r hr) hk
  exact .ret

/-! ### the hypotheses can be met -/

namespace Demo

theorem small {P : Nat → Nat → Prop} (h : ∀ q ∈ pairs 1 1, P q.1 q.2) : ∀ a b, a ≤ 1 → b ≤ 1 → P a b :=
  fun a b h1 h2 => h (a, b) (mem_pairs.2 ⟨h1, h2⟩)

theorem four {q : Nat × Nat} (h : q ∈ pairs 1 1) : q = (0, 0) ∨ q = (0, 1) ∨ q = (1, 0) ∨ q = (1, 1) := by
  simpa [show pairs 1 1 = [(0, 0), (0, 1), (1, 0), (1, 1)] from rfl] using h

theorem infoOk_mult : InfoOk hmult 1 1 where
  inj := fun a b a' b' h1 h2 h3 h4 => small (P := fun a b => ∀ a' b', a' ≤ 1 → b' ≤ 1 →
    hmult.name a' b' = hmult.name a b → a' = a ∧ b' = b) (fun q hq => small (by
      revert q; decide +kernel)) a b h1 h2 a' b' h3 h4
  own := small (by decide +kernel)

theorem infoOk_add : InfoOk hadd 1 1 where
  inj := fun a b a' b' h1 h2 h3 h4 => small (P := fun a b => ∀ a' b', a' ≤ 1 → b' ≤ 1 →
    hadd.name a' b' = hadd.name a b → a' = a ∧ b' = b) (fun q hq => small (by
      revert q; decide +kernel)) a b h1 h2 a' b' h3 h4
  own := small (by decide +kernel)

theorem hslot {q : Addr × Name} (h : q ∈ hslots) {i : Info} {a b : Nat} (hq : q.2 = i.name a b)
    {real : Nat → Nat → Addr} (hm : procH.mem (href.addr + q.1) = real a b) :
    SlotFor procH (fun _ => True) i real (href, q.1) a b := by
  refine ⟨by show _ ∈ [href, hmath, libc]; simp, trivial, ?_, hm⟩
  rw [rl_href, ← hq]
  exact h

/-- C117 with X = Y = 1. -/
example : ∃ s', Eval (machine env) hcode procH.start (hammerMain hmult hadd 1 1 hrefs hrefs) [] 0 s' := by
  obtain ⟨s', h⟩ := C117_hammer procH_ok historyH.for infoOk_mult infoOk_add
    (fun a b a' b' h1 h2 h3 h4 => small (P := fun a b => ∀ a' b', a' ≤ 1 → b' ≤ 1 →
      hmult.name a b ≠ hadd.name a' b') (fun q hq => small (by revert q; decide +kernel)) a b h1 h2 a' b' h3 h4)
    (realM := fun a b => 0x50004000 + fnOff a b) (realA := fun a b => 0x50005000 + fnOff a b)
    (small (by decide +kernel)) (small (by decide +kernel)) (mults := hrefs) (adds := hrefs)
    (by
      have key : ∀ a b, a ≤ 1 → b ≤ 1 → (0x18 + fnOff a b, hmult.name a b) ∈ hslots ∧
          procH.mem (href.addr + (0x18 + fnOff a b)) = 0x50004000 + fnOff a b := small (by decide +kernel)
      have key : ∀ a b, a ≤ 1 → b ≤ 1 → SlotFor procH (fun _ => True) hmult (fun a b => 0x50004000 + fnOff a b)
          (href, 0x18 + fnOff a b) a b := fun a b h1 h2 => hslot (key a b h1 h2).1 rfl (key a b h1 h2).2
      intro r hr
      simp only [hrefs, List.mem_cons, List.not_mem_nil, or_false] at hr
      rcases hr with rfl | rfl
      · exact ⟨Nat.le_refl _, Nat.le_refl _, fun b hb => key 1 b (Nat.le_refl _) hb⟩
      · exact ⟨Nat.zero_le _, Nat.le_refl _, fun b hb => key 0 b (Nat.zero_le _) hb⟩)
    (by
      have key : ∀ a b, a ≤ 1 → b ≤ 1 → (0x58 + fnOff a b, hadd.name a b) ∈ hslots ∧
          procH.mem (href.addr + (0x58 + fnOff a b)) = 0x50005000 + fnOff a b := small (by decide +kernel)
      have key : ∀ a b, a ≤ 1 → b ≤ 1 → SlotFor procH (fun _ => True) hadd (fun a b => 0x50005000 + fnOff a b)
          (href, 0x58 + fnOff a b) a b := fun a b h1 h2 => hslot (key a b h1 h2).1 rfl (key a b h1 h2).2
      intro r hr a h1 b h2
      simp only [hrefs, List.mem_cons, List.not_mem_nil, or_false] at hr
      rcases hr with rfl | rfl <;> exact key a b h1 h2)
    (code := hcode)
    (small fun q hq => by rcases four hq with rfl | rfl | rfl | rfl <;> rfl)
    (small fun q hq => by rcases four hq with rfl | rfl | rfl | rfl <;> rfl)
    (small fun q hq => by rcases four hq with rfl | rfl | rfl | rfl <;> rfl)
    (small fun q hq => by rcases four hq with rfl | rfl | rfl | rfl <;> rfl)
  exact ⟨s', (h _ _ _).2 ⟨rfl, rfl, rfl⟩⟩

end Demo
end Gotcha
