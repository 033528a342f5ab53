import Verif.Proof.Skip
/-
Which slots a pass over the link map fills: those of every library that the filter lets through and that is
not up to date.
-/
namespace Gotcha
open HTable
open Spec (exportsAt firstDef insertBefore Frame Abs)

theorem procList_acc {flt : Filter} {g : BitVec 32} {R : Lib → Option LibRec} {l : Lib} :
    ∀ {ls : List Lib}, Accepted flt ls l → ((R l).getD ⟨0, false, 0⟩).gen ≠ g → l ∈ procList flt g R ls := by
  intro ls
  induction ls with
  | nil => rintro ⟨X, Y, e, -⟩; simp at e
  | cons k ls ih =>
    rintro ⟨X, Y, e, ha⟩ hg
    rw [procList]
    cases X with
    | nil =>
      rw [List.nil_append, List.cons.injEq] at e
      obtain ⟨rfl, rfl⟩ := e
      rw [if_pos (by
        simp only [processed, ha, Bool.true_and, Bool.not_eq_true', decide_eq_false_iff_not]; exact hg)]
      simp
    | cons x X =>
      rw [List.cons_append, List.cons.injEq] at e
      have := ih ⟨X, Y, e.2, ha⟩ hg
      split
      · exact List.mem_cons_of_mem _ this
      · exact this

/-- A pass over the link map with a table `m` of bindings fills the slots of every accepted library that is
not up to date. -/
theorem pass_slots {C : Ctx} (w : World C.env C.U) {s : State} {G : Gh} {A : Abs}
    {t : HTable Name BId} {m} (h : Inv C s G A) (ht : TabMap strhash t m)
    (hm : ∀ f b, m f = some b → b ∈ G.ch f) :
    ∃ tl libs' wr' mem',
      s.updateAll C.env t =
        .ok { s with libTab := tl, libs := libs', wr := wr', mem := mem' } ∧
      (SlotCons s.linkMap → ∀ l, Accepted s.filter s.linkMap l → genAt s.libs G.lm l ≠ s.gen →
        ∀ q ∈ rlOf l, ∀ b, m q.2 = some b → bwr s.binds b = some (mem' (l.addr + q.1))) := by
  have hbd : ∀ f b, m f = some b → b < s.binds.length := by
    intro f b hb
    obtain ⟨t, u, e, -⟩ := h.bind.named (hm f b hb)
    exact btu_lt e
  obtain ⟨tl, libs', lm', wr', mem', hL, hW, hwr, hrs, hmk, hmem, he⟩ :=
    updateLibs_spec w ht s.linkMap h.nd h.lib h.wr h.objs h.placed hbd (fun l hl => hl)
  have hmem' : mem' = passMem (wOf s.binds m) (procList s.filter s.gen (recAt s.libs G.lm)
      s.linkMap) s.mem := hmem
  have hwof : ∀ f, wOf s.binds m f = (m f).bind (bwr s.binds) := by
    intro f; simp only [wOf, wrapperOf_eq]
  refine ⟨tl, libs', wr', mem', he, ?_⟩
  intro hcons l hacc hg q hq b hb
  have hin : l ∈ procList s.filter s.gen (recAt s.libs G.lm) s.linkMap := procList_acc hacc hg
  have hlm : ∀ {l'}, l' ∈ procList s.filter s.gen (recAt s.libs G.lm) s.linkMap → l' ∈ s.linkMap := by
    intro l' hl'
    obtain ⟨X, Y, e, -⟩ := procList_mem hl'
    rw [e]; simp
  have hbl : (wOf s.binds m q.2).isSome := by
    rw [hwof, hb]
    obtain ⟨t', u', hbu⟩ := btu_of_lt (hbd _ _ hb)
    simp [bwr, hbu]
  obtain ⟨l', hl', q', hq', e', hwq⟩ := passMem_written (wOf s.binds m) _ s.mem hin hq hbl
  have hn := hcons l (hlm hin) l' (hlm hl') q hq q' hq' e'
  rw [← hn, hwof, hb, ← hmem'] at hwq
  exact hwq

/-- `gotcha_wrap` of a table without "main": when the outermost wrapper of a function changes, it gets into
the slots of every accepted library that does not carry the new generation already. -/
theorem wrap_slots {C : Ctx} (w : World C.env C.U) {om oa quiet Q}
    (hom : OnMain C om oa quiet Q) {s : State} {G : Gh} {A : Abs} (h : Inv C s G A)
    (hnh : ¬ C.hon) (hns : ¬ C.sl) (tbl : List UBinding) (tool : Option Name)
    (hq : (∀ u ∈ tbl, u.name ≠ nm "main") ∨ quiet s.mainWrapped) :
    ∃ s' c, wrapCore C.env om tbl tool s = .ok (s', c) ∧
      (∀ {b y}, btu s.binds b = some y → btu s'.binds b = some y) ∧
      (SlotCons s.linkMap → ∀ l, Accepted s.filter s.linkMap l → genAt s.libs G.lm l ≠ s.gen + 1 →
        ∀ q ∈ rlOf l, ∀ b, nameLookup s'.funTab q.2 = .ok (some b) → nameLookup s.funTab q.2 ≠ .ok (some b) →
          bwr s'.binds b = some (s'.mem (l.addr + q.1))) := by
  generalize htn : tool.getD (nm "[UNSPECIFIED]") = tn at *
  obtain ⟨ts, tid, p, H, hgc, hnp, hadd, hI, hK⟩ := setup_inv h tn tbl (fun hx => absurd hx hnh)
    (fun hx => absurd hx hns)
  set s1 : State := { s with
          tools := ts
          gen := s.gen + 1
          binds := s.binds ++ tbl.map (mkB tid)
          handles := H } with hs1
  set G1 : Gh := { G with
    pend := fun c => G.pend c ∨ c ∈ List.range' s.binds.length tbl.length } with hG1
  have hbs : (List.range' s.binds.length tbl.length).map (btu s1.binds) =
      tbl.map (fun u => some (tid, u)) := by
    apply List.ext_getElem?
    intro i
    simp only [List.getElem?_map]
    by_cases hi : i < tbl.length
    · rw [List.getElem?_range' (by simpa using hi), List.getElem?_eq_getElem hi]
      simp only [Option.map_some, Nat.one_mul]
      congr 1
      show btu (s.binds ++ tbl.map (mkB tid)) _ = _
      simp [btu, List.getElem?_append_right, List.getElem?_eq_getElem hi, mkB]
    · rw [List.getElem?_eq_none (by simp; omega), List.getElem?_eq_none (by omega)]
      rfl
  have hnb0 : NbOk none (fun _ => none) := Or.inl ⟨rfl, fun _ => rfl⟩
  have hent0 : NbEnt s1 G1 p (fun _ => none) := by intro f b e; cases e
  obtain ⟨n, hn, hpn⟩ : ∃ n, 0 < n ∧ processBindings C.env om tbl.length
      (List.range' s.binds.length tbl.length) s1 none 0 = processBindings C.env om n
      (List.range' s.binds.length tbl.length) s1 none 0 := by
    cases tbl with
    | nil => exact ⟨1, by omega, rfl⟩
    | cons u us => exact ⟨_, by simp, rfl⟩
  obtain ⟨s2, G2, nb2, m2, nf2, f1, f2, f3, f4, f5, f6, f7, f8, f9, f10, f11, f12, f13, f14, f15,
      f16, f17, f18⟩ :=
    processBindings_spec w hom (n := n) hn (t := tid)
      (tool := tn) (p := p) (D := G.dirty) (nb := none) (nf := 0) (m := fun _ => none) tbl hI
      List.nodup_range' hbs (fun b hb => Or.inr hb) hnp hnb0 hent0 (by funext f; simp [hG1])
      (fun hs => absurd hs hns)
  rw [← hpn] at f1
  have hwrap : wrapCore C.env om tbl tool s =
      (match nb2 with
        | none => Except.ok s2
        | some t => s2.updateAll C.env t) >>= fun s' =>
          .ok (s', if nf2 > 0 then .functionNotFound else .success) := by
    unfold wrapCore
    rw [htn]
    obtain ⟨H0, hf, -⟩ := fold_handles tbl s
    rw [hf] at hadd ⊢
    simp only [bind, Except.bind, hgc]
    rw [hadd]
    simp only [f1]
    cases nb2 <;> rfl
  obtain ⟨hQ, hheads⟩ := f10 hq
  have htu : ∀ {b y}, btu s.binds b = some y → btu s2.binds b = some y := fun hb => f3.tu (hK.tu hb)
  have hm : ∀ {f b}, nameLookup s2.funTab f = .ok (some b) → nameLookup s.funTab f ≠ .ok (some b) →
      m2 f = some b := by
    intro f b h1 h2
    rw [nameLookup_tab f2.fn] at h1
    rw [nameLookup_tab h.fn] at h2
    have h1 : (G2.ch f).head? = some b := Except.ok.inj h1
    have h2 : (G1.ch f).head? ≠ some b := fun e => h2 (congrArg _ e)
    have := (f18 hq).2.2 f (by rw [h1]; exact Ne.symm h2)
    obtain ⟨c, hc⟩ := Option.isSome_iff_exists.1 this
    have := hheads (by intro f b e; cases e) f c hc
    rw [h1] at this
    cases this
    exact hc
  rcases f5 with ⟨rfl, hm0⟩ | ⟨t, rfl, ht⟩
  · refine ⟨s2, _, hwrap, htu, ?_⟩
    intro _ l _ _ q _ b h1 h2
    have := hm h1 h2
    rw [hm0] at this
    cases this
  · obtain ⟨tl, libs', wr', mem', g1, g2⟩ := pass_slots w f2 ht (fun f b hb => (f6 f b hb).1)
    refine ⟨{ s2 with libTab := tl, libs := libs', wr := wr', mem := mem' },
      if nf2 > 0 then .functionNotFound else .success, ?_, htu, ?_⟩
    · rw [hwrap]
      simp only [g1, bind, Except.bind]
    · intro hcons l hacc hg q hq' b h1 h2
      refine g2 (by rw [f3.linkMap]; exact hcons) l (by rw [f3.filter, f3.linkMap]; exact hacc) ?_ q hq' b
        (hm h1 h2)
      rw [genAt_ext hQ.ext, hQ.gen]
      exact hg

/-- An intercepted dlopen fills the slots of every accepted library that is not up to date. -/
theorem dlopen_slots {C : Ctx} (w : World C.env C.U) {seen n s G A} (h : Post C seen n s G A)
    {ld : Load} (hld : LoadOk C seen s.linkMap ld)
    (hw : ∃ a, s.getWrappee C.env.hDlopen = .ok a) :
    ∃ s', dlopenWrapper C.env ld s = .ok s' ∧ s'.funTab = s.funTab ∧
      (SlotCons (s.linkMap ++ ld.libs) → ∀ l, Accepted s.filter (s.linkMap ++ ld.libs) l →
        genAt s.libs G.lm l ≠ s.gen → ∀ q ∈ rlOf l, ∀ b, nameLookup s.funTab q.2 = .ok (some b) →
          bwr s'.binds b = some (s'.mem (l.addr + q.1))) := by
  have hs := h.seen
  have hI := load_inv h.inv (by rw [hs]; exact hld) h.vd
  obtain ⟨s1, G1, e1, e2, e3⟩ := foreach_pending w hI
  obtain ⟨⟨tl, libs, vd, binds, nft, rfl⟩, ⟨rl, nf, lm, rfl⟩, htu, hext, hvd⟩ := e3
  obtain ⟨tl', libs', wr', mem', g1, g2⟩ :=
    pass_slots w e2 (t := s.funTab) (m := fun f => (G.ch f).head?) h.inv.fn
      (fun f b hb => List.mem_of_mem_head? (by simp only [Option.mem_def]; exact hb))
  obtain ⟨a, ha⟩ := hw
  refine ⟨{ s.load ld with
    libTab := tl'
    libs := libs'
    vdso := vd
    binds := binds
    notFound := nft
    wr := wr'
    mem := mem' }, ?_, rfl, ?_⟩
  · simp only [dlopenWrapper, ha, bind, Except.bind, State.afterDlopen, e1]
    exact g1
  · intro hcons l hacc hg q hq b hb
    rw [nameLookup_tab h.inv.fn] at hb
    exact g2 hcons l hacc (by show genAt libs lm l ≠ s.gen; rw [genAt_ext hext l]; exact hg) q hq b
      (Except.ok.inj hb)

end Gotcha
