import Verif.Proof.TraceTop
/-
The stores of an intercepted dlopen, as seen by a caller of one function.
-/
namespace Gotcha
open HTable Tr
open Spec (exportsAt firstDef insertBefore Frame Abs wrappers Safe Pos next)

theorem erase_perBinding (env : Env) (key data) (s : State) :
    erase (perBindingT env key data s) = perBinding env key data s := by
  unfold perBindingT perBinding
  cases key with
  | none => rfl
  | some k =>
    cases data with
    | none => rfl
    | some b =>
      simp only [erase_bind, erase_lift, erase_prepareSymbol]
      congr 1; funext c
      congr 1; funext ⟨s1, ok⟩
      dsimp only
      cases ok with
      | false => rfl
      | true => simp only [if_true, erase_bind, erase_lift, erase_pure]

theorem perBindingLog_fst (env : Env) (key data) (x : State × List State) :
    (perBindingLog env key data x).map (fun y => (y.1.1, y.2)) = perBinding env key data x.1 := by
  rw [← erase_perBinding]
  unfold perBindingLog
  cases h : perBindingT env key data x.1 with
  | error f => rfl
  | ok z => obtain ⟨tr, s, st⟩ := z; rfl

theorem foreachLog_fst (env : Env) : ∀ (n : Nat) (i : Option Nat) (x : State × List State),
    (foreachEntry (fun x : State × List State => x.1.notFound) (perBindingLog env) n i x).map
      (·.1) = foreachEntry State.notFound (perBinding env) n i x.1
  | 0, none, x => rfl
  | n + 1, none, x => rfl
  | 0, some i, x => rfl
  | n + 1, some i, x => by
    unfold foreachEntry
    cases hs : x.1.notFound.slots[i]? with
    | none => rfl
    | some e =>
      dsimp only
      have := perBindingLog_fst env e.key e.data x
      cases hl : perBindingLog env e.key e.data x with
      | error f => rw [hl] at this; rw [← this]; rfl
      | ok y =>
        obtain ⟨x', st⟩ := y
        rw [hl] at this
        rw [← this]
        cases st with
        | true => rfl
        | false =>
          simp only [Except.map]
          cases hs' : x'.1.notFound.slots[i]? with
          | none => rfl
          | some e' => exact foreachLog_fst env n e'.next x'

theorem erase_afterDlopen (env : Env) (s : State) :
    erase (s.afterDlopenT env) = s.afterDlopen env := by
  unfold State.afterDlopenT State.afterDlopen
  have := foreachLog_fst env s.notFound.slots.length s.notFound.head (s, [])
  simp only [erase_bind, erase_lift]
  rw [← this]
  cases foreachEntry (fun x : State × List State => x.1.notFound) (perBindingLog env)
      s.notFound.slots.length s.notFound.head (s, []) with
  | error f => rfl
  | ok x =>
    show erase (x.1.updateAllT env x.1.funTab) = _
    rw [erase_updateAll]
    rfl

/-- Recording the stores does not change what the intercepted dlopen does. -/
theorem erase_dlopenWrapper (env : Env) (ld : Load) (s : State) :
    erase (dlopenWrapperT env ld s) = dlopenWrapper env ld s := by
  unfold dlopenWrapperT dlopenWrapper
  simp only [erase_bind, erase_lift, erase_afterDlopen]
  rfl

/-- The states recorded by one `per_binding` show what its last state shows. -/
theorem perBindingT_same {env : Env} {k b} {s s' : State} {st tr}
    (he : perBindingT env (some k) (some b) s = .ok (tr, (s', st))) : ∀ σ ∈ tr, Same s' σ := by
  unfold perBindingT at he
  dsimp only at he
  obtain ⟨t1, c, t2, e1, e2, rfl⟩ := ok_bind he
  obtain ⟨rfl, e1⟩ := ok_lift e1
  obtain ⟨t3, ⟨s1, ok⟩, t4, e3, e4, rfl⟩ := ok_bind e2
  have hp : ∀ σ ∈ t3, Same s1 σ := by
    unfold State.prepareSymbolT at e3
    obtain ⟨t7, x2, t8, e7, e8, rfl⟩ := ok_bind e3
    replace e7 := ok_lift e7; obtain ⟨rfl, e7⟩ := e7
    simpa using (prepareLoopT_same _ e8).1
  dsimp only at e4
  cases ok with
  | false =>
    rw [if_neg (by simp)] at e4
    obtain ⟨rfl, e4⟩ := ok_pure e4
    cases e4
    simpa using hp
  | true =>
    rw [if_pos rfl] at e4
    obtain ⟨t5, ⟨tb, o⟩, t6, e5, e6, rfl⟩ := ok_bind e4
    obtain ⟨rfl, e5⟩ := ok_lift e5
    obtain ⟨rfl, e6⟩ := ok_pure e6
    cases e6
    intro σ hσ
    simp only [List.nil_append, List.append_nil] at hσ
    exact (Same.of s1 (σ := { s1 with notFound := tb }) rfl rfl rfl).symm.trans (hp σ hσ)

/-- Looking for the pending functions: every recorded state shows a state in which some of them have been
looked for. -/
theorem foreachLog_pending {C : Ctx} (w : World C.env C.U) {s G} {A : Abs} {libs : List Lib}
    (h : Inv C s G { A with libs := A.libs ++ libs }) :
    ∃ s' G' tr, foreachEntry (fun x : State × List State => x.1.notFound) (perBindingLog C.env)
        s.notFound.slots.length s.notFound.head (s, []) = .ok (s', tr) ∧
      Inv C s' G' (A.dlopen libs) ∧ RB s G s' G' ∧
      ∀ σ ∈ tr, ∃ s1 G1 its, Inv C s1 G1 (absIts A libs its) ∧ RB s G s1 G1 ∧ Same s1 σ ∧
        (C.hon → ∀ k ∈ its.map (·.1), A.stack k ≠ [] ∧ A.real k = none) := by
  have hnfr : C.hon → ∀ f, (G.nf f).isSome ↔ (A.stack f ≠ [] ∧ A.real f = none) := by
    intro hh f
    rw [h.nfr hh f, ← h.real hh f, show A.stack f = _ from h.stack hh f]
    simp
  obtain ⟨⟨s', tr⟩, m', h1, h2, ⟨G', h3, h4, -⟩, h5⟩ := foreach_tab (σ := State × List State)
    (hash := strhash) (fun x : State × List State => x.1.notFound)
    (perBindingLog C.env) (fun k x => decide (x = k)) (by simp)
    (fun x m its => (∃ G', Inv C x.1 G' (absIts A libs its) ∧ RB s G x.1 G' ∧ G'.nf = m ∧
      (its.map (·.1)).Nodup ∧ (C.hon → ∀ k ∈ its.map (·.1), A.stack k ≠ [] ∧ A.real k = none)) ∧
      ∀ σ ∈ x.2, ∃ s1 G1 its, Inv C s1 G1 (absIts A libs its) ∧ RB s G s1 G1 ∧ Same s1 σ ∧
        (C.hon → ∀ k ∈ its.map (·.1), A.stack k ≠ [] ∧ A.real k = none))
    (by
      rintro ⟨s1, tr1⟩ m k d rest - ⟨⟨G1, g1, g2, g3, g4, g5⟩, g6⟩ hk
      obtain ⟨s2, G2, e1, e2, e3, e4⟩ := perBinding_spec w g1 (k := k) (b := d) (by rw [g3]; exact hk)
      obtain ⟨tr2, e1T⟩ := erase_ok ((erase_perBinding C.env _ _ s1).trans e1)
      have hres : Inv C s2 G2 (absIts A libs rest) := by
        have hx : absIts A libs rest = { ({ absIts A libs ((k, d) :: rest) with
            real := upd (absIts A libs ((k, d) :: rest)).real k
              ((absIts A libs ((k, d) :: rest)).resolve k) } : Abs) with
              real := (absIts A libs rest).real } := rfl
        rw [hx]
        refine e2.setReal ?_
        intro hh f
        simp only [List.map_cons, List.nodup_cons] at g4
        by_cases e : f = k
        · subst e
          have := g5 hh f (by simp)
          simp only [upd_self, absIts, if_neg g4.1, Abs.dlopen, if_pos this]
          rfl
        · show (absIts A libs rest).real f =
            upd (absIts A libs ((k, d) :: rest)).real k _ f
          rw [upd_ne _ _ e]
          simp only [absIts, List.map_cons, List.mem_cons, e, false_or]
      simp only [List.map_cons, List.nodup_cons] at g4
      have hrest : C.hon → ∀ k ∈ rest.map (·.1), A.stack k ≠ [] ∧ A.real k = none :=
        fun hh k' hk' => g5 hh k' (List.mem_cons_of_mem _ hk')
      have hlog : ∀ σ ∈ tr1 ++ tr2, ∃ s1 G1 its, Inv C s1 G1 (absIts A libs its) ∧
          RB s G s1 G1 ∧ Same s1 σ ∧
          (C.hon → ∀ k ∈ its.map (·.1), A.stack k ≠ [] ∧ A.real k = none) := by
        intro σ hσ
        rcases List.mem_append.1 hσ with hσ | hσ
        · exact g6 σ hσ
        · exact ⟨s2, G2, rest, hres, g2.trans e3, perBindingT_same e1T σ hσ, hrest⟩
      refine ⟨(s2, tr1 ++ tr2), by simp only [perBindingLog, e1T], ?_⟩
      rcases e4 with ⟨q1, q2⟩ | ⟨e, q1, q2⟩
      · exact Or.inl ⟨q1, ⟨G2, hres, g2.trans e3, q2.trans g3, g4.2, hrest⟩, hlog⟩
      · exact Or.inr ⟨e, q1, ⟨G2, hres, g2.trans e3, by rw [q2, g3], g4.2, hrest⟩, hlog⟩)
    (s := (s, [])) h.nf
    (by
      intro its hnd hits
      have hmem : ∀ k, k ∈ its.map (·.1) ↔ (G.nf k).isSome := by
        intro k
        constructor
        · intro hk
          obtain ⟨⟨k', d⟩, hk', rfl⟩ := List.mem_map.1 hk
          rw [(hits k' d).1 hk']; rfl
        · intro hk
          obtain ⟨d, hd⟩ := Option.isSome_iff_exists.1 hk
          exact List.mem_map.2 ⟨(k, d), (hits k d).2 hd, rfl⟩
      refine ⟨⟨G, ?_, RB.refl _ _, rfl, hnd, ?_⟩, by simp⟩
      · have hx : absIts A libs its = { ({ A with libs := A.libs ++ libs } : Abs) with
            real := (absIts A libs its).real } := rfl
        rw [hx]
        refine h.setReal ?_
        intro hh f
        simp only [absIts]
        split
        · rfl
        · rename_i hf
          rw [hmem, hnfr hh f] at hf
          simp only [Abs.dlopen, if_neg hf]
      · intro hh k hk
        rw [hmem] at hk
        exact (hnfr hh k).1 hk)
  refine ⟨s', G', tr, h1, ?_, h4, h5⟩
  have : absIts A libs [] = A.dlopen libs := by
    simp [absIts, Abs.dlopen]
  rw [← this]; exact h3

theorem RB.mem {s G s' G'} (h : RB s G s' G') : s'.mem = s.mem := by
  obtain ⟨tl, libs, vd, binds, nft, rfl⟩ := h.st; rfl
theorem RB.handles {s G s' G'} (h : RB s G s' G') : s'.handles = s.handles := by
  obtain ⟨tl, libs, vd, binds, nft, rfl⟩ := h.st; rfl

/-- The stores of an intercepted dlopen for a caller of `f` through one slot. -/
theorem dlopenT_trace {C : Ctx} (w : World C.env C.U) (hh : C.hon) (hsl : C.sl) {seen n s G A}
    (h : Post C seen n s G A) {ld : Load} (hld : LoadOk C seen s.linkMap ld) {tr s'}
    (he : dlopenWrapperT C.env ld s = .ok (tr, s')) {f : Name} {r : Addr}
    (hr : A.stack f = [] ∨ (A.dlopen ld.libs).real f = some r) {l : Lib} {off : Addr}
    (hl : l ∈ s.linkMap ++ ld.libs) (hoff : (off, f) ∈ rlOf l) :
    ∃ bid T0 T1, tr = s.load ld :: T0 ++ T1 ∧ s'.handles = s.handles ∧
      (∀ {x b}, s.handles x = some b → bid x = b) ∧
      (∀ σ ∈ s.load ld :: T0, σ.mem (l.addr + off) = (s.load ld).mem (l.addr + off)) ∧
      ((A.stack f = [] ∨ A.real f = some r) →
        ∀ σ ∈ s.load ld :: T0, Lk C.P bid r σ (A.stack f)) ∧
      (∀ σ ∈ T1, Lk C.P bid r σ (A.stack f) ∧
        (σ.mem (l.addr + off) = (s.load ld).mem (l.addr + off) ∨
          (A.stack f ≠ [] ∧ σ.mem (l.addr + off) = hdW r (A.stack f)))) ∧
      T1.Pairwise (fun σ τ => σ.mem (l.addr + off) = (s.load ld).mem (l.addr + off) ∨
        τ.mem (l.addr + off) = σ.mem (l.addr + off)) := by
  have hs := h.seen
  have hI := load_inv h.inv (by rw [hs]; exact hld) h.vd
  obtain ⟨s1, G1, tr1, e1, e2, e3, e4⟩ := foreachLog_pending w hI
  unfold dlopenWrapperT at he
  obtain ⟨t1, _, t2, c1, c2, rfl⟩ := ok_bind he
  obtain ⟨rfl, c1⟩ := ok_lift c1
  obtain ⟨t3, _, t4, c3, c4, rfl⟩ := ok_bind c2
  cases c3
  unfold State.afterDlopenT at c4
  obtain ⟨t5, x, t6, c5, c6, rfl⟩ := ok_bind c4
  obtain ⟨rfl, c5⟩ := ok_lift c5
  rw [show (s.load ld).notFound = s.notFound from rfl] at c5 e1
  rw [e1] at c5
  cases c5
  obtain ⟨t7, _, t8, c7, c8, rfl⟩ := ok_bind c6
  cases c7
  set bid : HAddr → BId := fun x => (s.handles x).getD 0 with hbid
  have hbid0 : ∀ {x b}, s.handles x = some b → bid x = b := fun hx => bid_getD s.handles hx
  have hG1 : G1.ch = G.ch := by
    obtain ⟨rl, nf, lm, rfl⟩ := e3.gh; rfl
  have hlm1 : s1.linkMap = s.linkMap ++ ld.libs := by
    obtain ⟨tl, libs, vd, binds, nft, rfl⟩ := e3.st; rfl
  have hpass := updateLibsT_passTr (m := fun f => (G1.ch f).head?) e2.fn s1.linkMap (fun l hl => hl) c8
  have hpass1 : ∀ {σ τ : State}, σ.binds = s1.binds →
      Passing (fun f => (G1.ch f).head?) s1.linkMap σ τ → τ.mem (l.addr + off) = σ.mem (l.addr + off) ∨
        (A.stack f ≠ [] ∧ τ.mem (l.addr + off) = hdW r (A.stack f)) := by
    intro σ τ hb0 hp
    rcases hp.mem (l.addr + off) with e | ⟨k, hk, q, hq, e5, b, e6, e7⟩
    · left; exact e
    · right
      rw [hb0] at e7
      have hf : f = q.2 := hld.cons hsl l hl k (by rw [← hlm1]; exact hk) (off, f) hoff q hq e5
      rw [← hf] at e6
      rw [show A.stack f = _ from e2.stack hh f]
      cases hc : G1.ch f with
      | nil => rw [hc] at e6; cases e6
      | cons c cs =>
        rw [hc] at e6
        cases e6
        refine ⟨by simp, ?_⟩
        unfold bwr at e7
        cases hb : btu s1.binds b with
        | none => rw [hb] at e7; cases e7
        | some y =>
          obtain ⟨t', u'⟩ := y
          rw [hb] at e7
          simp only [Option.map_some, Option.some.injEq] at e7
          simp [hdW, frameOf, hb, e7]
  have hslot : ∀ σ ∈ t8, σ.mem (l.addr + off) = (s.load ld).mem (l.addr + off) ∨
      (A.stack f ≠ [] ∧ σ.mem (l.addr + off) = hdW r (A.stack f)) := by
    intro σ hσ
    rcases hpass1 rfl (hpass.all σ hσ) with e | e
    · left; rw [e, e3.mem]
    · exact Or.inr e
  refine ⟨bid, tr1, t8, by simp, ?_, hbid0, ?_, ?_, ?_, ?_⟩
  · rw [(updateLibsT_pass (m := fun f => (G1.ch f).head?) e2.fn s1.linkMap
      (fun l hl => hl) c8).2.handles, e3.handles]
    rfl
  · intro σ hσ
    rcases List.mem_cons.1 hσ with rfl | hσ
    · rfl
    · obtain ⟨s2, G2, its, -, g2, g3, -⟩ := e4 σ hσ
      rw [g3.mem, g2.mem]
  · intro hr0 σ hσ
    rcases List.mem_cons.1 hσ with rfl | hσ
    · exact lk_of_inv hI hh hbid0 hr0
    · obtain ⟨s2, G2, its, g1, g2, g3, g4⟩ := e4 σ hσ
      refine Lk.same (lk_of_inv g1 hh (fun hx => hbid0 ?_) (f := f) (r := r) ?_) g3
      · rw [g2.handles] at hx; exact hx
      · rcases hr0 with hr0 | hr0
        · exact Or.inl hr0
        · right
          have hf : f ∉ its.map (·.1) := fun hf => by
            have := (g4 hh f hf).2
            rw [hr0] at this
            cases this
          show (if f ∈ its.map (·.1) then A.real f else (A.dlopen ld.libs).real f) = some r
          rw [if_neg hf]
          simp only [Abs.dlopen]
          rw [if_neg (fun hc => by rw [hr0] at hc; cases hc.2)]
          exact hr0
  · have hlk : Lk C.P bid r s1 (A.stack f) :=
      lk_of_inv (A := A.dlopen ld.libs) e2 hh (fun hx => hbid0 (by rw [e3.handles] at hx; exact hx)) hr
    intro σ hσ
    have hp := hpass.all σ hσ
    exact ⟨hlk.congr (fun _ _ => by rw [hp.handles]) (fun _ _ => by unfold rd; rw [hp.binds]), hslot σ hσ⟩
  · refine (List.pairwise_append.1 hpass.ord).1.imp_of_mem ?_
    intro σ τ hσ _ hp
    rcases hslot σ hσ with e | ⟨-, e⟩
    · exact Or.inl e
    · right
      rcases hpass1 (hpass.all σ hσ).binds hp with e' | ⟨-, e'⟩
      · exact e'
      · rw [e, e']

/-- A caller through a slot that is rewired from a function that is no wrapper, or already leads to the
head of the stack. -/
theorem safe_rewire {P : Addr → Option HAddr} {bid r} {a v : Addr} {T0 T1 : List State}
    {D : List Frame} (hr : D ≠ [] → P r = none)
    (hm0 : ∀ σ ∈ T0, σ.mem a = v)
    (h1 : ∀ σ ∈ T1, Lk P bid r σ D ∧ (σ.mem a = v ∨ (D ≠ [] ∧ σ.mem a = hdW r D)))
    (hv : P v = none ∨ (D ≠ [] ∧ v = hdW r D ∧ ∀ σ ∈ T0, Lk P bid r σ D)) :
    Safe P (fun path => (P v = none ∧ path = [v]) ∨ (D ≠ [] ∧ path = wrappers D ++ [r])) (T0 ++ T1)
      (.slot a) := by
  refine Safe.step (fun σ tr' _ => by simp [next]) ?_
  intro σ tr' pos' hs h
  simp only [next, Option.some.injEq] at h
  subst h
  have hnew : D ≠ [] → σ.mem a = hdW r D → (∀ τ ∈ σ :: tr', Lk P bid r τ D) →
      Safe P (fun path => (P v = none ∧ path = [v]) ∨ (D ≠ [] ∧ path = wrappers D ++ [r])) (σ :: tr')
        (.jump (σ.mem a) []) := by
    intro hD e hL
    rw [e]
    exact safe_same (hr hD) D hL (Or.inr ⟨hD, by simp⟩)
  have hold : P v = none → σ.mem a = v →
      Safe P (fun path => (P v = none ∧ path = [v]) ∨ (D ≠ [] ∧ path = wrappers D ++ [r])) (σ :: tr')
        (.jump (σ.mem a) []) := by
    intro hv e
    rw [e]
    have hn : ∀ τ, next P τ (.jump v []) = some (.done [v]) := by
      intro τ; simp [next, hv]
    refine Safe.step (fun τ _ _ => by rw [hn]; simp) ?_
    intro τ tr2 pos2 _ h2
    rw [hn] at h2
    cases h2
    exact Safe.done (Or.inl ⟨hv, rfl⟩)
  rcases hv with hv | ⟨hD, hv, hL0⟩
  · rcases suffix_append hs with ⟨T0', hT, e⟩ | hT
    · cases T0' with
      | nil =>
        have hT1 : ∀ τ ∈ σ :: tr', τ ∈ T1 := fun τ hτ => by rw [e] at hτ; exact hτ
        rcases (h1 σ (hT1 σ (by simp))).2 with e1 | ⟨e1, e2⟩
        · exact hold hv e1
        · exact hnew e1 e2 (fun τ hτ => (h1 τ (hT1 τ hτ)).1)
      | cons t0 T0' =>
        simp only [List.cons_append, List.cons.injEq] at e
        obtain ⟨rfl, rfl⟩ := e
        exact hold hv (hm0 σ (suffix_mem hT))
    · rcases (h1 σ (suffix_mem hT)).2 with e1 | ⟨e1, e2⟩
      · exact hold hv e1
      · exact hnew e1 e2 (fun τ hτ => (h1 τ (hT.subset hτ)).1)
  · have hL : ∀ τ ∈ σ :: tr', Lk P bid r τ D := by
      intro τ hτ
      rcases List.mem_append.1 (hs.subset hτ) with hτ | hτ
      · exact hL0 τ hτ
      · exact (h1 τ hτ).1
    have hm : σ.mem a = hdW r D := by
      rcases List.mem_append.1 (suffix_mem hs) with hσ | hσ
      · rw [hm0 σ hσ, hv]
      · rcases (h1 σ hσ).2 with e | ⟨-, e⟩
        · rw [e, hv]
        · exact e
    exact hnew hD hm hL

end Gotcha

namespace Gotcha.Spec
open Gotcha Tr

theorem Safe.mono {P : Addr → Option HAddr} {Q Q' : List Addr → Prop} (h : ∀ path, Q path → Q' path)
    {tr pos} (hs : Safe P Q tr pos) : Safe P Q' tr pos := by
  induction hs with
  | done hq => exact .done (h _ hq)
  | step h1 _ ih => exact .step h1 ih

theorem Calls.congr {P : Addr → Option HAddr} {s s' : State}
    (h : ∀ x, s'.getWrappee x = s.getWrappee x) {a path} (hc : Calls P s a path) :
    Calls P s' a path := by
  induction hc with
  | stop hp => exact .stop hp
  | cont hp hg _ ih => exact .cont hp ((h _).trans hg) ih

/-- The end of a history of which the last event is an intercepted dlopen. -/
theorem history_dlopen_moment {p : Process} (ok : p.Ok) {ops : List Op} {ld : Load}
    (h : History p True (ops ++ [.dlopen ld])) (hapi : ops.any isApi = true) {s os}
    (hrun : run p.env ops p.start = .ok (s, os)) {f : Name} {r : Addr}
    (hr : registered p.env ops f = [] ∨ realAfter p.env p.libs (ops ++ [.dlopen ld]) f = some r)
    (hPr : p.P r = none) {l : Lib} {off : Addr} (hl : l ∈ libsAfter p.libs ops ++ ld.libs)
    (hoff : (off, f) ∈ rlOf l)
    (hPv : p.P ((s.load ld).mem (l.addr + off)) = none ∨ (l ∈ libsAfter p.libs ops ∧
      registered p.env ops f ≠ [] ∧ realAfter p.env p.libs ops f = some r)) :
    ∃ tr s' old new, dlopenWrapperT p.env ld s = .ok (s.load ld :: tr, s') ∧
      dlopenWrapper p.env ld s = .ok s' ∧
      Calls p.P (s.load ld) ((s.load ld).mem (l.addr + off)) old ∧
      Calls p.P s' (s'.mem (l.addr + off)) new ∧
      Safe p.P (fun path => path = old ∨ path = new) (s.load ld :: tr) (.slot (l.addr + off)) ∧
      ∃ X Y, s.load ld :: tr = X ++ Y ∧ Safe p.P (fun path => path = old) X (.slot (l.addr + off)) ∧
        Safe p.P (fun path => path = new) Y (.slot (l.addr + off)) := by
  set a := l.addr + off with ha
  obtain ⟨s0, s', e1, e2, e3, e4, e5, e6⟩ := history_step ok h
  rw [hrun] at e1
  cases e1
  obtain ⟨-, hop⟩ := valid_snoc ops _ (start_valid (hon := True) h.toEvents fun _ => h.honest)
  have hstk : ∀ ops g, stackOf p ops g = [] ↔ registered p.env ops g = [] := by
    intro ops g
    have := stackOf_perm p ops g
    constructor
    · intro hx; rw [hx] at this; exact List.Perm.nil_eq this ▸ rfl
    · intro hx; rw [hx] at this; exact this.eq_nil
  have hinit : s.inited = true := by
    rw [(history_view ok h.prefix hrun).2.2]; exact hapi
  have hw : dlopenWrapper p.env ld s = .ok s' := by
    simp only [stepOp, if_pos hinit, bind, Except.bind] at e2
    cases hg : dlopenWrapper p.env ld s with
    | error e => simp [hg] at e2
    | ok z =>
      simp only [hg, Except.ok.injEq, Prod.mk.injEq] at e2
      rw [← e2.1]
  obtain ⟨tr, htr⟩ := erase_ok ((erase_dlopenWrapper p.env ld s).trans hw)
  have hsnoc := run_snoc p.env ops (.dlopen ld) p.abs
  have hpost : ∃ v G, Post ((p.ctx True True).at v) (seenRun p.seen ops)
      (3 + ops.length) s G (Abs.run p.env ops p.abs).1 := by
    rcases e4 with e4 | e4
    · exfalso
      have : (Abs.run p.env ops p.abs).1.inited = true := by
        rw [abs_start, (run_prio p.env p.libs _).2]
        exact hapi
      rw [e4.abs] at this
      cases this
    · exact e4
  have hpost' : ∃ v G, Post ((p.ctx True True).at v) (seenRun p.seen (ops ++ [.dlopen ld]))
      (3 + ops.length + 1) s' G (Abs.run p.env (ops ++ [.dlopen ld]) p.abs).1 := by
    rcases e5 with e5 | e5
    · exfalso
      have : (Abs.run p.env (ops ++ [.dlopen ld]) p.abs).1.inited = true := by
        rw [abs_start, (run_prio p.env p.libs _).2]
        simpa using Or.inl hapi
      rw [e5.abs] at this
      cases this
    · exact e5
  obtain ⟨v, G, hpost⟩ := hpost
  obtain ⟨v', G', hpost'⟩ := hpost'
  have hlibs : (Abs.run p.env ops p.abs).1.libs = s.linkMap := top_libs e4
  have hlm0 : s.linkMap = libsAfter p.libs ops := (history_view ok h.prefix hrun).2.1
  have hAin : (Abs.run p.env ops p.abs).1.inited = true := by
    rw [abs_start, (run_prio p.env p.libs _).2]; exact hapi
  have hstep : ((Abs.run p.env ops p.abs).1.step p.env (.dlopen ld)).1 =
      (Abs.run p.env ops p.abs).1.dlopen ld.libs := by
    simp [Abs.step, hAin]
  have hst' : stackOf p (ops ++ [.dlopen ld]) f = stackOf p ops f := by
    unfold stackOf; rw [hsnoc, hstep]; rfl
  have hr' : stackOf p ops f = [] ∨
      ((Abs.run p.env ops p.abs).1.dlopen ld.libs).real f = some r := by
    rcases hr with hr | hr
    · exact Or.inl ((hstk _ _).2 hr)
    · right
      rw [← real_run, hsnoc, hstep] at hr
      exact hr
  obtain ⟨bid, T0, T1, rfl, -, -, g1, g2, g3, g4⟩ := dlopenT_trace (C := (p.ctx True True).at v) ok.world trivial
    trivial hpost (by
      have : LoadOk (p.ctx True True) (seenRun p.seen ops) (Abs.run p.env ops p.abs).1.libs ld := hop.1
      rw [hlibs] at this
      exact this.at v) htr (f := f) (r := r) hr' (l := l) (off := off)
    (by rw [hlm0]; exact hl) hoff
  obtain ⟨hv, -, -⟩ := history_view ok h.prefix hrun
  obtain ⟨hv', hlm', -⟩ := history_view ok h e3
  set D := stackOf p ops f with hD
  have hllm' : l ∈ s'.linkMap := by rw [e6.linkMap]; show l ∈ s.linkMap ++ ld.libs; rw [hlm0]; exact hl
  have hnewD : D ≠ [] → Calls p.P s' (s'.mem a) (wrappers D ++ [r]) := by
    intro hne
    have hne' : stackOf p (ops ++ [.dlopen ld]) f ≠ [] := by rw [hst']; exact hne
    have hm : s'.mem a = hdW r (stackOf p (ops ++ [.dlopen ld]) f) :=
      post_slot hpost' trivial trivial hllm' trivial hoff hne'
    rw [hm, hst']
    cases hc : D with
    | nil => exact absurd hc hne
    | cons fr D' =>
      have hreal : realAfter p.env p.libs (ops ++ [.dlopen ld]) f = some r :=
        hr.resolve_left (fun hx => hne ((hstk _ _).2 hx))
      exact view_calls hv' (by rw [real_run]; exact hreal) hPr (fr :: D') []
        (by show stackOf p (ops ++ [.dlopen ld]) f = _; rw [hst', hc]; rfl) fr D' rfl
  have hsafe := safe_rewire (P := p.P) (bid := bid) (r := r) (a := a)
    (v := (s.load ld).mem a) (T0 := s.load ld :: T0) (T1 := T1) (D := D) (fun _ => hPr) g1 g3
  have hnil : ∀ (v : Addr) (D : List Frame), (D = [] → p.P v = none) → (D ≠ [] → v = hdW r D ∧ p.P r = none) →
      Safe p.P (fun path => path = pathOf v r D) [] (.slot a) := fun v D h0 h1 =>
    safe_const (bid := bid) (by simp) (by simp) h0 h1
  have hpD : ∀ v, D ≠ [] → pathOf v r D = wrappers D ++ [r] := by
    intro v hx
    cases hc : D with
    | nil => exact absurd hc hx
    | cons => rfl
  by_cases hP : p.P ((s.load ld).mem a) = none
  · by_cases hDn : D = []
    · refine ⟨T0 ++ T1, s', [(s.load ld).mem a], [(s.load ld).mem a], htr, hw, .stop hP, ?_,
        (hsafe (Or.inl hP)).mono ?_, s.load ld :: T0 ++ T1, [], by simp, ?_,
        hnil ((s.load ld).mem a) [] (fun _ => hP) (fun hx => absurd rfl hx)⟩
      · have hsame : s'.mem a = (s.load ld).mem a := by
          rcases e6.mem a with hx | ⟨l', q, ⟨X, Y, hX, -⟩, hq', ha', x, hx, hn, -⟩
          · exact hx
          · exfalso
            have hl' : l' ∈ s'.linkMap := by rw [e6.linkMap, hX]; simp
            have := (hpost'.inv.slots trivial).cons l hllm' l' hl' (off, f) hoff q hq' ha'
            have hb := post_bound hpost' trivial hx
            rw [hn, ← this] at hb
            exact hb (hst'.trans (hD.symm.trans hDn))
        rw [hsame]
        exact .stop hP
      · rintro path (⟨-, hp⟩ | ⟨hp, -⟩)
        · exact Or.inl hp
        · exact absurd hDn hp
      · refine safe_const (bid := bid) (r := r) (D := []) (fun _ _ => lk_nil) ?_ (fun _ => hP) (fun hx => absurd rfl hx)
        intro σ hσ
        rcases List.mem_append.1 hσ with hσ | hσ
        · exact g1 σ hσ
        · exact (g3 σ hσ).2.resolve_right (fun hx => hx.1 hDn)
    · obtain ⟨T1a, T1b, e, h2, h3⟩ := split_once (w := hdW r D) g4
        (fun σ hσ => (g3 σ hσ).2.imp id (fun h => h.2))
      refine ⟨T0 ++ T1, s', [(s.load ld).mem a], wrappers D ++ [r], htr, hw, .stop hP, hnewD hDn,
        (hsafe (Or.inl hP)).mono ?_, s.load ld :: T0 ++ T1a, T1b, by rw [e]; simp, ?_, ?_⟩
      · rintro path (⟨-, hp⟩ | ⟨-, hp⟩)
        · exact Or.inl hp
        · exact Or.inr hp
      · refine safe_const (bid := bid) (r := r) (D := []) (fun _ _ => lk_nil) ?_ (fun _ => hP) (fun hx => absurd rfl hx)
        intro σ hσ
        rcases List.mem_append.1 hσ with hσ | hσ
        · exact g1 σ hσ
        · exact h2 σ hσ
      · have := safe_const (P := p.P) (bid := bid) (r := r) (T := T1b) (D := D) (a := a)
          (fun σ hσ => (g3 σ (by rw [e]; exact List.mem_append_right _ hσ)).1) h3
          (fun hx => absurd hx hDn) (fun _ => ⟨rfl, hPr⟩)
        rwa [hpD _ hDn] at this
  · obtain ⟨hl0, hne, hreal0⟩ := hPv.resolve_left hP
    have hDn : D ≠ [] := fun hx => hne ((hstk _ _).1 hx)
    have hlm : l ∈ s.linkMap := by rw [hlm0]; exact hl0
    have hm0 : (s.load ld).mem a = s.mem a := by
      have := hop.1.keep trivial l (hlibs ▸ hlm : l ∈ (Abs.run p.env ops p.abs).1.libs) trivial
        (off, f) hoff
      show (ld.mem a).getD (s.mem a) = s.mem a
      rw [show ld.mem a = none from this]; rfl
    have hslot : (s.load ld).mem a = hdW r D := by
      rw [hm0]; exact post_slot hpost trivial trivial hlm trivial hoff hDn
    have hrA : (Abs.run p.env ops p.abs).1.real f = some r := by rw [real_run]; exact hreal0
    have hold : Calls p.P (s.load ld) ((s.load ld).mem a) (wrappers D ++ [r]) := by
      rw [hslot]
      refine Calls.congr (s := s) ?_ ?_
      · intro x; rfl
      · cases hc : D with
        | nil => exact absurd hc hDn
        | cons fr D' => exact view_calls hv hrA hPr (fr :: D') [] (hD.symm.trans hc) fr D' rfl
    refine ⟨T0 ++ T1, s', wrappers D ++ [r], wrappers D ++ [r], htr, hw, hold, hnewD hDn,
      (hsafe (Or.inr ⟨hDn, hslot, g2 (Or.inr hrA)⟩)).mono ?_, s.load ld :: T0 ++ T1, [], by simp, ?_, ?_⟩
    · rintro path (⟨hp, -⟩ | ⟨-, hp⟩)
      · exact absurd hp hP
      · exact Or.inl hp
    · have := safe_const (P := p.P) (bid := bid) (r := r) (T := s.load ld :: T0 ++ T1) (D := D) (a := a)
        (v := hdW r D) (by
          intro σ hσ
          rcases List.mem_append.1 hσ with hσ | hσ
          · exact g2 (Or.inr hrA) σ hσ
          · exact (g3 σ hσ).1) (by
          intro σ hσ
          rcases List.mem_append.1 hσ with hσ | hσ
          · rw [g1 σ hσ, hslot]
          · rcases (g3 σ hσ).2 with e | ⟨-, e⟩
            · rw [e, hslot]
            · exact e) (fun hx => absurd hx hDn) (fun _ => ⟨rfl, hPr⟩)
      rwa [hpD _ hDn] at this
    · have := hnil (hdW r D) D (fun hx => absurd hx hDn) (fun _ => ⟨rfl, hPr⟩)
      rwa [hpD _ hDn] at this

theorem history_dlopen {p : Process} (ok : p.Ok) {ops : List Op} {ld : Load}
    (h : History p True (ops ++ [.dlopen ld])) (hapi : ops.any isApi = true) {s os}
    (hrun : run p.env ops p.start = .ok (s, os)) {f : Name} {r : Addr}
    (hr : registered p.env ops f = [] ∨ realAfter p.env p.libs (ops ++ [.dlopen ld]) f = some r)
    (hPr : p.P r = none) {l : Lib} {off : Addr} (hl : l ∈ libsAfter p.libs ops ++ ld.libs)
    (hoff : (off, f) ∈ rlOf l)
    (hPv : p.P ((s.load ld).mem (l.addr + off)) = none ∨ (l ∈ libsAfter p.libs ops ∧
      registered p.env ops f ≠ [] ∧ realAfter p.env p.libs ops f = some r)) :
    ∃ tr s' old new, dlopenWrapperT p.env ld s = .ok (s.load ld :: tr, s') ∧
      dlopenWrapper p.env ld s = .ok s' ∧
      Calls p.P (s.load ld) ((s.load ld).mem (l.addr + off)) old ∧
      Calls p.P s' (s'.mem (l.addr + off)) new ∧
      Safe p.P (fun path => path = old ∨ path = new) (s.load ld :: tr) (.slot (l.addr + off)) := by
  obtain ⟨tr, s', old, new, h1, h2, h3, h4, h5, -⟩ := history_dlopen_moment ok h hapi hrun hr hPr hl hoff hPv
  exact ⟨tr, s', old, new, h1, h2, h3, h4, h5⟩

end Gotcha.Spec
