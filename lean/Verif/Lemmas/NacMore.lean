import Verif.Lemmas.Exclude

namespace Verif
open Spec Nacaddr

/-! ### an induction principle for the collapse loop -/

structure MergeInv (comps : List Net) (I : List Net → Prop) : Prop where
  perm : ∀ {l m : List Net}, l.Perm m → I l → I m
  wf : ∀ {l : List Net}, I l → ∀ n ∈ l, WF n
  subsume : ∀ p a rest, I (a :: p :: rest) → safeToMerge a p (compsAt comps a) = .ok true →
    (∀ v x, Mem a v x → Mem p v x) → I (p.addComment a.text :: rest)
  merge : ∀ p a rest, I (a :: p :: rest) → safeToMerge a p (compsAt comps a) = .ok true →
    Siblings p a → I ((p.addComment a.text).supernet :: rest)

theorem push_ind {comps : List Net} {I : List Net → Prop} (H : MergeInv comps I) (more : List Net) :
    ∀ (ret : List Net) (a : Net) (r : List Net), I (a :: (ret ++ more)) → push comps ret a = .ok r →
      I (r ++ more) := by
  intro ret
  induction ret with
  | nil =>
    intro a r hi h
    simp only [push, Except.ok.injEq] at h
    subst h; exact hi
  | cons p rest ih =>
    intro a r hi h
    have wa := H.wf hi a (by simp)
    have wp := H.wf hi p (by simp)
    simp only [push] at h
    split at h
    · cases h
    · cases h; exact hi
    next hsafe =>
      split at h
      next hs =>
        cases h
        exact H.subsume p a (rest ++ more) hi hsafe ((subnetOf_iff wa wp).1 hs)
      next hs =>
        split at h
        next hm =>
          exact ih _ r (H.merge p a (rest ++ more) hi hsafe ((mergeable_iff wp wa).1 hm)) h
        next => cases h; exact hi

theorem collapseLoop_ind {comps : List Net} {I : List Net → Prop} (H : MergeInv comps I) :
    ∀ (l ret r : List Net), I (ret ++ l) → collapseLoop comps ret l = .ok r → I r := by
  intro l
  induction l with
  | nil =>
    intro ret r hi h
    simp only [collapseLoop, Except.ok.injEq] at h
    subst h; simpa using hi
  | cons a as ih =>
    intro ret r hi h
    simp only [collapseLoop] at h
    split at h
    · cases h
    next ret' he =>
      refine ih ret' r ?_ h
      exact push_ind H as ret a ret' (H.perm List.perm_middle hi) he

theorem collapse_ind {l comps r : List Net} {I : List Net → Prop} (H : MergeInv (keptComps l comps) I)
    (hi : I l) (h : collapseAddrList l comps = .ok r) : I r := by
  unfold collapseAddrList at h
  split at h
  · cases h
  next ret he =>
    cases h
    refine H.perm (List.reverse_perm _).symm ?_
    refine collapseLoop_ind H (sortAddrList l) [] ret ?_ he
    exact H.perm (isort_perm _ _).symm hi

theorem mem_perm_forall {P : α → Prop} {l m : List α} (h : l.Perm m) (hl : ∀ n ∈ l, P n) :
    ∀ n ∈ m, P n := fun n hn => hl n (h.mem_iff.2 hn)

theorem wf_subsume {p a : Net} {rest : List Net} (h : ∀ n ∈ a :: p :: rest, WF n) :
    ∀ n ∈ p.addComment a.text :: rest, WF n := by
  intro n hn
  rcases List.mem_cons.1 hn with rfl | hn
  · exact (wf_addComment _).2 (h p (by simp))
  · exact h n (by simp [hn])

theorem wf_merge {p a : Net} {rest : List Net} (h : ∀ n ∈ a :: p :: rest, WF n) (hs : Siblings p a) :
    ∀ n ∈ (p.addComment a.text).supernet :: rest, WF n := by
  intro n hn
  rcases List.mem_cons.1 hn with rfl | hn
  · exact supernet_wf ((wf_addComment _).2 (h p (by simp))) (h a (by simp)) ((siblings_addComment _).2 hs)
  · exact h n (by simp [hn])

/-! ### totality on one family -/

theorem safeToMerge_total {a p : Net} : ∀ {cs : List Net}, (∀ c ∈ cs, c.ver = p.ver) →
    ∃ b, safeToMerge a p cs = .ok b := by
  intro cs
  induction cs with
  | nil => intro _; exact ⟨true, rfl⟩
  | cons c cs ih =>
    intro h
    simp only [safeToMerge]
    rw [if_neg (by simp [h c (List.mem_cons_self ..)])]
    split
    · exact ⟨_, rfl⟩
    · exact ih fun d hd => h d (List.mem_cons_of_mem _ hd)

theorem ver_supernet (n : Net) : n.supernet.ver = n.ver := by
  unfold Net.supernet; split <;> rfl

theorem push_total (comps : List Net) (v : Ver) : ∀ (ret : List Net) (a : Net),
    (∀ n ∈ ret, n.ver = v) → a.ver = v → ∃ r, push comps ret a = .ok r ∧ ∀ n ∈ r, n.ver = v := by
  intro ret
  induction ret with
  | nil => intro a _ ha; exact ⟨[a], rfl, by simpa using ha⟩
  | cons p rest ih =>
    intro a hr ha
    have hp := hr p (List.mem_cons_self ..)
    have hall : ∀ n ∈ a :: p :: rest, n.ver = v := by
      intro n hn
      rcases List.mem_cons.1 hn with rfl | hn
      · exact ha
      · exact hr n hn
    obtain ⟨b, hb⟩ := safeToMerge_total (a := a) (p := p) (cs := compsAt comps a) (by
      intro c hc
      have := (List.mem_filter.1 hc).2
      simp only [Bool.and_eq_true, beq_iff_eq] at this
      rw [this.1, ha, hp])
    simp only [push, hb]
    cases b with
    | false => exact ⟨_, rfl, hall⟩
    | true =>
      simp only []
      split
      · refine ⟨_, rfl, ?_⟩
        intro n hn
        rcases List.mem_cons.1 hn with rfl | hn
        · rw [ver_addComment]; exact hp
        · exact hr n (List.mem_cons_of_mem _ hn)
      · split
        · exact ih _ (fun n hn => hr n (List.mem_cons_of_mem _ hn))
            (by rw [ver_supernet, ver_addComment]; exact hp)
        · exact ⟨_, rfl, hall⟩

theorem collapseLoop_total (comps : List Net) (v : Ver) : ∀ (l ret : List Net),
    (∀ n ∈ ret, n.ver = v) → (∀ n ∈ l, n.ver = v) → ∃ r, collapseLoop comps ret l = .ok r := by
  intro l
  induction l with
  | nil => intro ret _ _; exact ⟨ret, rfl⟩
  | cons a as ih =>
    intro ret hr hl
    obtain ⟨r, he, h'⟩ := push_total comps v ret a hr (hl a (List.mem_cons_self ..))
    simp only [collapseLoop, he]
    exact ih r h' fun n hn => hl n (List.mem_cons_of_mem _ hn)

theorem collapseAddrList_total (l comps : List Net) (v : Ver) (h : ∀ n ∈ l, n.ver = v) :
    ∃ r, collapseAddrList l comps = .ok r := by
  obtain ⟨r, hr⟩ := collapseLoop_total (keptComps l comps) v (sortAddrList l) [] (by simp)
    (fun n hn => h n (mem_isort.1 hn))
  exact ⟨r.reverse, by unfold collapseAddrList; rw [hr]⟩

/-! ### longest-prefix match (C04) -/

theorem lpm_perm {l m exc : List Net} (h : l.Perm m) (v x) : LpmMatch l exc v x ↔ LpmMatch m exc v x := by
  unfold LpmMatch
  constructor <;> rintro ⟨n, hn, h'⟩
  · exact ⟨n, h.mem_iff.1 hn, h'⟩
  · exact ⟨n, h.mem_iff.2 hn, h'⟩

theorem safeToMerge_true {a p : Net} : ∀ {cs : List Net}, safeToMerge a p cs = .ok true →
    ∀ c ∈ cs, ¬ (p.netmask ≤ c.netmask ∧ c.netmask < a.netmask) := by
  intro cs
  induction cs with
  | nil => intro _ c hc; cases hc
  | cons d ds ih =>
    intro h c hc
    simp only [safeToMerge] at h
    split at h
    · cases h
    · split at h
      · cases h
      next hn =>
        rcases List.mem_cons.1 hc with rfl | hc
        · exact hn
        · exact ih h c hc

theorem strictSub_of_plen {a e : Net} (wa : WF a) (we : WF e) {v x} (ha : Mem a v x) (he : Mem e v x)
    (h : e.plen < a.plen) : StrictSub a e := by
  refine ⟨nested_of_le wa we ha he (by omega), ?_⟩
  intro h'
  have := plen_le_of_sub we wa h'
  omega

/-- every exclude strictly containing the network starts at the network's own address and is kept
in the complement dict -/
def CompOk (kept exc : List Net) (n : Net) : Prop :=
  ∀ e ∈ exc, StrictSub n e → n.addr = e.addr ∧ e ∈ kept

theorem strictSub_congr {a b e : Net} (h : block a = block b) : StrictSub a e ↔ StrictSub b e := by
  unfold StrictSub
  constructor <;> rintro ⟨h1, h2⟩ <;> refine ⟨?_, ?_⟩
  · intro v x hm; exact h1 v x ((mem_congr_block h v x).2 hm)
  · intro h'; exact h2 fun v x hm => (mem_congr_block h v x).2 (h' v x hm)
  · intro v x hm; exact h1 v x ((mem_congr_block h v x).1 hm)
  · intro h'; exact h2 fun v x hm => (mem_congr_block h v x).1 (h' v x hm)

theorem right_not_in {kept exc : List Net} {p a e : Net} (wp : WF p) (wa : WF a) (we : WF e) (he : e ∈ exc)
    (hs : Siblings p a) (ha : CompOk kept exc a) (hp : ∀ v x, Mem p v x → Mem e v x)
    (haa : ∀ v x, Mem a v x → Mem e v x) : False := by
  have q1 := plen_le_of_sub wp we hp
  have : StrictSub a e := by
    refine ⟨haa, ?_⟩
    intro h
    have h1 := h _ _ (hp _ _ mem_self)
    obtain ⟨s1, s2, s3, s4, s5⟩ := hs
    have h2 := h1.2.1
    have := Nat.two_pow_pos (p.ver.bits - p.plen)
    omega
  have h1 := (ha e he this).1
  obtain ⟨s1, s2, s3, s4, s5⟩ := hs
  have := Nat.two_pow_pos (p.ver.bits - p.plen)
  omega

theorem lpm_inv (l exc : List Net) (hexc : ∀ n ∈ exc, WF n) :
    MergeInv (keptComps l exc) (fun m => (∀ n ∈ m, WF n) ∧ (∀ n ∈ m, CompOk (keptComps l exc) exc n) ∧
      ∀ v x, LpmMatch m exc v x ↔ LpmMatch l exc v x) where
  perm := by
    rintro m k h ⟨h1, h2, h3⟩
    exact ⟨mem_perm_forall h h1, mem_perm_forall h h2, fun v x => (lpm_perm h v x).symm.trans (h3 v x)⟩
  wf := fun h => h.1
  subsume := by
    rintro p a rest ⟨h1, h2, h3⟩ hsafe hsub
    have wp := h1 p (by simp)
    have wa := h1 a (by simp)
    refine ⟨wf_subsume h1, ?_, ?_⟩
    · intro n hn
      rcases List.mem_cons.1 hn with rfl | hn
      · intro e he hst
        rw [addr_addComment]
        exact h2 p (by simp) e he ((strictSub_congr (block_addComment p a.text)).1 hst)
      · exact h2 n (by simp [hn])
    · intro v x
      rw [← h3 v x]
      constructor
      · rintro ⟨n, hn, hm, hall⟩
        rcases List.mem_cons.1 hn with rfl | hn
        · rw [mem_addComment] at hm
          rw [plen_addComment] at hall
          exact ⟨p, by simp, hm, hall⟩
        · exact ⟨n, by simp [hn], hm, hall⟩
      · rintro ⟨n, hn, hm, hall⟩
        rcases List.mem_cons.1 hn with rfl | hn
        · refine ⟨p.addComment n.text, by simp, (mem_addComment _ _ _ _).2 (hsub v x hm), ?_⟩
          rw [plen_addComment]
          intro e he hme
          rcases Nat.lt_or_ge e.plen p.plen with h | h
          · exact h
          exfalso
          have we := hexc e he
          obtain ⟨ea, ek⟩ := h2 n (by simp) e he (strictSub_of_plen wa we hm hme (hall e he hme))
          have hv : e.ver = n.ver := hme.1.trans hm.1.symm
          have hvp : p.ver = e.ver := (hsub v x hm).1.trans hme.1.symm
          have hin : e ∈ compsAt (keptComps l exc) n := by
            unfold compsAt
            rw [List.mem_filter]
            exact ⟨ek, by simp [hv, ea]⟩
          refine safeToMerge_true hsafe e hin ⟨?_, (netmask_lt_iff we wa hv).2 (hall e he hme)⟩
          have := netmask_lt_iff we wp hvp.symm
          omega
        · rcases List.mem_cons.1 hn with rfl | hn
          · exact ⟨n.addComment a.text, by simp, (mem_addComment _ _ _ _).2 hm,
              by rw [plen_addComment]; exact hall⟩
          · exact ⟨n, by simp [hn], hm, hall⟩
  merge := by
    rintro p a rest ⟨h1, h2, h3⟩ hsafe hsib
    have wp := h1 p (by simp)
    have wa := h1 a (by simp)
    have wp' := (wf_addComment a.text).2 wp
    have sib' := (siblings_addComment a.text).2 hsib
    have wsup := supernet_wf wp' wa sib'
    have hmem := mem_supernet wp' sib'
    have hfields := supernet_block wp' sib'
    have hplen : (p.addComment a.text).supernet.plen = p.plen - 1 := by
      have : (p.addComment a.text).supernet.plen = (p.addComment a.text).plen - 1 := by
        simp only [block, Prod.mk.injEq] at hfields
        exact hfields.2.2
      rw [this, plen_addComment]
    have hp0 := hsib.2.2.1
    refine ⟨wf_merge h1 hsib, ?_, ?_⟩
    · intro n hn
      rcases List.mem_cons.1 hn with rfl | hn
      · intro e he hst
        exfalso
        refine right_not_in wp wa (hexc e he) he hsib (h2 a (by simp)) ?_ ?_
        · intro v x hm; exact hst.1 v x ((hmem v x).2 (.inl ((mem_addComment _ _ _ _).2 hm)))
        · intro v x hm; exact hst.1 v x ((hmem v x).2 (.inr hm))
      · exact h2 n (by simp [hn])
    · intro v x
      rw [← h3 v x]
      -- an exclude containing `x` has length < the half iff < the parent
      have key : ∀ e ∈ exc, Mem e v x → Mem (p.addComment a.text).supernet v x →
          e.plen < p.plen → e.plen < p.plen - 1 := by
        intro e he hme hms hlt
        rcases Nat.lt_or_ge e.plen (p.plen - 1) with h | h
        · exact h
        exfalso
        have hsub := nested_of_le wsup (hexc e he) hms hme (by omega)
        refine right_not_in wp wa (hexc e he) he hsib (h2 a (by simp)) ?_ ?_
        · intro v x hm; exact hsub v x ((hmem v x).2 (.inl ((mem_addComment _ _ _ _).2 hm)))
        · intro v x hm; exact hsub v x ((hmem v x).2 (.inr hm))
      constructor
      · rintro ⟨n, hn, hm, hall⟩
        rcases List.mem_cons.1 hn with rfl | hn
        · rw [hplen] at hall
          rcases (hmem v x).1 hm with hm' | hm'
          · exact ⟨p, by simp, (mem_addComment _ _ _ _).1 hm', fun e he h => by
              have := hall e he h; omega⟩
          · refine ⟨a, by simp, hm', fun e he h => ?_⟩
            have := hall e he h; have := hsib.2.1; omega
        · exact ⟨n, by simp [hn], hm, hall⟩
      · rintro ⟨n, hn, hm, hall⟩
        rcases List.mem_cons.1 hn with rfl | hn
        · refine ⟨(p.addComment n.text).supernet, by simp, (hmem v x).2 (.inr hm), ?_⟩
          rw [hplen]
          intro e he hme
          exact key e he hme ((hmem v x).2 (.inr hm)) (by rw [hsib.2.1]; exact hall e he hme)
        · rcases List.mem_cons.1 hn with rfl | hn
          · have hm' := (mem_addComment n a.text v x).2 hm
            refine ⟨(n.addComment a.text).supernet, by simp, (hmem v x).2 (.inl hm'), ?_⟩
            rw [hplen]
            intro e he hme
            exact key e he hme ((hmem v x).2 (.inl hm')) (hall e he hme)
          · exact ⟨n, by simp [hn], hm, hall⟩

theorem collapse_lpm (l exc r : List Net) (hl : ∀ n ∈ l, WF n) (hexc : ∀ n ∈ exc, WF n)
    (hp : ∀ a ∈ l, ∀ e ∈ exc, StrictSub a e → a.addr = e.addr)
    (h : collapseAddrList l exc = .ok r) : ∀ v x, LpmMatch r exc v x ↔ LpmMatch l exc v x := by
  refine (collapse_ind (lpm_inv l exc hexc) ⟨hl, ?_, fun _ _ => Iff.rfl⟩ h).2.2
  intro n hn e he hst
  have ha := hp n hn e he hst
  have hv := (hst.1 _ _ mem_self).1
  refine ⟨ha, ?_⟩
  unfold keptComps
  rw [List.mem_filter]
  refine ⟨he, List.any_eq_true.2 ⟨n, hn, ?_⟩⟩
  simp [hv, ha]

/-! ### comments and tokens -/

theorem infix_addComment (n : Net) (c : Str) : c <:+: (n.addComment c).text := by
  unfold Net.addComment
  split
  · split
    · exact ⟨n.text ++ ", ".toList, [], by simp⟩
    next h =>
      by_cases hc : c = []
      · subst hc; exact ⟨[], n.text, by simp⟩
      · rcases Classical.em (c <:+: n.text) with h' | h'
        · exact h'
        · exact absurd ⟨hc, h'⟩ h
  · exact List.infix_refl _

theorem text_infix_addComment (n : Net) (c : Str) : n.text <:+: (n.addComment c).text := by
  unfold Net.addComment
  split
  · split
    · exact ⟨[], ", ".toList ++ c, by simp⟩
    · exact List.infix_refl _
  next h =>
    have : n.text = [] := Classical.not_not.1 h
    rw [this]; exact ⟨[], c, by simp⟩

theorem text_supernet (n : Net) : n.supernet.text = n.text := by
  unfold Net.supernet; split <;> rfl

theorem token_supernet (n : Net) : n.supernet.token = n.token := by
  unfold Net.supernet; split <;> rfl

theorem token_addComment (n : Net) (c : Str) : (n.addComment c).token = n.token := by
  unfold Net.addComment; split
  · split <;> rfl
  · rfl

theorem parent_addComment (n : Net) (c : Str) : (n.addComment c).parent = n.parent := by
  unfold Net.addComment; split
  · split <;> rfl
  · rfl

theorem parent_supernet (n : Net) : n.supernet.parent = n.parent ∨ n.supernet.parent = n.token := by
  unfold Net.supernet; split
  · exact .inl rfl
  · exact .inr rfl

theorem comment_inv (l comps : List Net) :
    MergeInv comps (fun m => (∀ n ∈ m, WF n) ∧
      ∀ a ∈ l, ∃ n ∈ m, (∀ v x, Mem a v x → Mem n v x) ∧ a.text <:+: n.text) where
  perm := by
    rintro m k h ⟨h1, h2⟩
    refine ⟨mem_perm_forall h h1, ?_⟩
    intro a ha
    obtain ⟨n, hn, h'⟩ := h2 a ha
    exact ⟨n, h.mem_iff.1 hn, h'⟩
  wf := fun h => h.1
  subsume := by
    rintro p a rest ⟨h1, h2⟩ _ hsub
    refine ⟨wf_subsume h1, ?_⟩
    intro i hi
    obtain ⟨n, hn, hm, ht⟩ := h2 i hi
    rcases List.mem_cons.1 hn with rfl | hn
    · exact ⟨_, List.mem_cons_self .., fun v x h => (mem_addComment _ _ _ _).2 (hsub v x (hm v x h)),
        ht.trans (infix_addComment p n.text)⟩
    · rcases List.mem_cons.1 hn with rfl | hn
      · exact ⟨_, List.mem_cons_self .., fun v x h => (mem_addComment _ _ _ _).2 (hm v x h),
          ht.trans (text_infix_addComment n a.text)⟩
      · exact ⟨n, List.mem_cons_of_mem _ hn, hm, ht⟩
  merge := by
    rintro p a rest ⟨h1, h2⟩ _ hsib
    have wp' := (wf_addComment a.text).2 (h1 p (by simp))
    have hmem := mem_supernet wp' ((siblings_addComment a.text).2 hsib)
    refine ⟨wf_merge h1 hsib, ?_⟩
    intro i hi
    obtain ⟨n, hn, hm, ht⟩ := h2 i hi
    rcases List.mem_cons.1 hn with rfl | hn
    · exact ⟨_, List.mem_cons_self .., fun v x h => (hmem v x).2 (.inr (hm v x h)),
        by rw [text_supernet]; exact ht.trans (infix_addComment p n.text)⟩
    · rcases List.mem_cons.1 hn with rfl | hn
      · exact ⟨_, List.mem_cons_self .., fun v x h => (hmem v x).2 (.inl ((mem_addComment _ _ _ _).2 (hm v x h))),
          by rw [text_supernet]; exact ht.trans (text_infix_addComment n a.text)⟩
      · exact ⟨n, List.mem_cons_of_mem _ hn, hm, ht⟩

theorem token_inv (l comps : List Net) :
    MergeInv comps (fun m => (∀ n ∈ m, WF n) ∧
      ∀ n ∈ m, ∃ a ∈ l, n.token = a.token ∧ (n.parent = a.parent ∨ n.parent = a.token)) where
  perm := by
    rintro m k h ⟨h1, h2⟩
    exact ⟨mem_perm_forall h h1, mem_perm_forall h h2⟩
  wf := fun h => h.1
  subsume := by
    rintro p a rest ⟨h1, h2⟩ _ _
    refine ⟨wf_subsume h1, ?_⟩
    intro n hn
    rcases List.mem_cons.1 hn with rfl | hn
    · rw [token_addComment, parent_addComment]; exact h2 p (by simp)
    · exact h2 n (by simp [hn])
  merge := by
    rintro p a rest ⟨h1, h2⟩ _ hsib
    refine ⟨wf_merge h1 hsib, ?_⟩
    intro n hn
    rcases List.mem_cons.1 hn with rfl | hn
    · rw [token_supernet, token_addComment]
      obtain ⟨b, hb, e1, e2⟩ := h2 p (by simp)
      refine ⟨b, hb, e1, ?_⟩
      rcases parent_supernet (p.addComment a.text) with h | h
      · rw [h, parent_addComment]; exact e2
      · rw [h, token_addComment]; exact .inr e1
    · exact h2 n (by simp [hn])

theorem collapse_tokens (l : List Net) (hl : ∀ n ∈ l, WF n) :
    ∀ n ∈ collapse l, ∃ a ∈ l, n.token = a.token ∧ (n.parent = a.parent ∨ n.parent = a.token) :=
  (collapse_ind (token_inv l (keptComps l [])) ⟨hl, fun n hn => ⟨n, hn, rfl, .inl rfl⟩⟩ (collapse_eq l)).2

/-! ### IsSuperNet -/

theorem isSuperNet_sound {sup sub : List Net} (w1 : ∀ n ∈ sup, WF n) (w2 : ∀ n ∈ sub, WF n)
    (h : isSuperNet sup sub = true) : ∀ v x, Den sub v x → Den sup v x := by
  rintro v x ⟨n, hn, hm⟩
  have := List.all_eq_true.1 h n hn
  obtain ⟨m, hm', hs⟩ := List.any_eq_true.1 this
  exact ⟨m, hm', (subnetOf_iff (w2 n hn) (w1 m hm')).1 hs v x hm⟩

theorem isSuperNet_complete {sup sub : List Net} (w1 : ∀ n ∈ sup, WF n) (w2 : ∀ n ∈ sub, WF n)
    (hs : SiblingFree sup) (h : ∀ v x, Den sub v x → Den sup v x) : isSuperNet sup sub = true := by
  refine List.all_eq_true.2 fun n hn => ?_
  obtain ⟨m, hm, hc⟩ := exists_cover w1 hs _ n rfl (w2 n hn) (fun v x hx => h v x ⟨n, hn, hx⟩)
  exact List.any_eq_true.2 ⟨m, hm, (subnetOf_iff (w2 n hn) (w1 m hm)).2 hc⟩

/-! ### CollapseAddrListPreserveTokens -/

theorem dedupInner_spec (ip : List Net) (wip : ∀ n ∈ ip, WF n) :
    ∀ (k : Nat) (ds : List (List Net)), ds.length ≤ k → (∀ d ∈ ds, ∀ n ∈ d, WF n) →
      (∀ d ∈ (dedupInner ip ds).1, d ∈ ds) ∧
      (∀ v x, (Den (dedupInner ip ds).1.flatten v x ∨ Den ip v x) ↔ (Den ds.flatten v x ∨ Den ip v x)) ∧
      ((dedupInner ip ds).2 = false → ∀ v x, Den ip v x → Den (dedupInner ip ds).1.flatten v x) := by
  intro k
  induction k with
  | zero =>
    intro ds hk w
    have : ds = [] := List.eq_nil_of_length_eq_zero (by omega)
    subst this
    simp [dedupInner]
  | succ k ih =>
    intro ds hk w
    cases ds with
    | nil => simp [dedupInner]
    | cons d ds =>
      have wd := w d (List.mem_cons_self ..)
      simp only [List.length_cons] at hk
      unfold dedupInner
      split
      next hsup =>
        refine ⟨fun _ h => h, fun v x => Iff.rfl, ?_⟩
        intro _ v x hx
        rw [den_flatten]
        exact ⟨d, List.mem_cons_self .., isSuperNet_sound wd wip hsup v x hx⟩
      next =>
        split
        next hsub =>
          have hs := isSuperNet_sound wip wd hsub
          cases ds with
          | nil =>
            refine ⟨by simp, ?_, by simp⟩
            intro v x
            simp only [List.flatten_nil, List.flatten_cons, List.append_nil, den_nil, false_or]
            exact ⟨.inr, fun h => h.elim (hs v x) id⟩
          | cons e es =>
            simp only [List.length_cons] at hk
            obtain ⟨i1, i2, i3⟩ := ih es (by omega)
              (fun d hd => w d (List.mem_cons_of_mem _ (List.mem_cons_of_mem _ hd)))
            refine ⟨?_, ?_, ?_⟩
            · intro f hf
              rcases List.mem_cons.1 hf with rfl | hf
              · simp
              · have := i1 f hf; simp [this]
            · intro v x
              simp only [List.flatten_cons, den_append]
              have := i2 v x
              have := hs v x
              grind
            · intro h v x hx
              simp only [List.flatten_cons, den_append]
              exact .inr (i3 h v x hx)
        next =>
          obtain ⟨i1, i2, i3⟩ := ih ds (by omega) (fun d hd => w d (List.mem_cons_of_mem _ hd))
          refine ⟨?_, ?_, ?_⟩
          · intro f hf
            rcases List.mem_cons.1 hf with rfl | hf
            · simp
            · have := i1 f hf; simp [this]
          · intro v x
            simp only [List.flatten_cons, den_append]
            have := i2 v x
            grind
          · intro h v x hx
            simp only [List.flatten_cons, den_append]
            exact .inr (i3 h v x hx)

theorem dedupOuter_spec : ∀ (gs dedup : List (List Net)),
    (∀ d ∈ dedup, ∀ n ∈ d, WF n) → (∀ d ∈ gs, ∀ n ∈ d, WF n) →
    (∀ d ∈ dedupOuter dedup gs, d ∈ dedup ∨ d ∈ gs) ∧
    (∀ v x, Den (dedupOuter dedup gs).flatten v x ↔ Den dedup.flatten v x ∨ Den gs.flatten v x) := by
  intro gs
  induction gs with
  | nil => intro dedup _ _; simp [dedupOuter]
  | cons ip rest ih =>
    intro dedup wd wg
    have wip := wg ip (List.mem_cons_self ..)
    have wrest : ∀ d ∈ rest, ∀ n ∈ d, WF n := fun d hd => wg d (List.mem_cons_of_mem _ hd)
    obtain ⟨i1, i2, i3⟩ := dedupInner_spec ip wip dedup.length dedup (Nat.le_refl _) wd
    unfold dedupOuter
    simp only []
    have hmem : ∀ d ∈ (if (dedupInner ip dedup).2 = true then (dedupInner ip dedup).1 ++ [ip]
        else (dedupInner ip dedup).1), d ∈ dedup ∨ d = ip := by
      intro d hd
      split at hd
      · rcases List.mem_append.1 hd with h | h
        · exact .inl (i1 d h)
        · exact .inr (List.mem_singleton.1 h)
      · exact .inl (i1 d hd)
    obtain ⟨j1, j2⟩ := ih (if (dedupInner ip dedup).2 = true then (dedupInner ip dedup).1 ++ [ip]
        else (dedupInner ip dedup).1) (by
      intro d hd
      rcases hmem d hd with h | rfl
      · exact wd d h
      · exact wip) wrest
    refine ⟨?_, ?_⟩
    · intro d hd
      rcases j1 d hd with h | h
      · rcases hmem d h with h | rfl
        · exact .inl h
        · exact .inr (List.mem_cons_self ..)
      · exact .inr (List.mem_cons_of_mem _ h)
    · intro v x
      rw [j2 v x]
      simp only [List.flatten_cons, den_append]
      have a1 := i2 v x
      split
      · simp only [List.flatten_append, List.flatten_cons, List.flatten_nil, List.append_nil, den_append]
        grind
      next h =>
        have a2 := i3 (by simpa using h) v x
        grind

theorem groupByParent_flatten (l : List Net) : (groupByParent l).flatten = l := by
  induction l with
  | nil => rfl
  | cons a as ih =>
    unfold groupByParent
    split
    next h => rw [h] at ih; simp at ih; simp [← ih]
    next gs h => rw [h] at ih; simp at ih; simp [ih]
    next b bs gs h =>
      rw [h] at ih
      split <;> simp only [List.flatten_cons, List.cons_append, List.nil_append] at * <;> rw [ih]

theorem groupByParent_same (l : List Net) :
    ∀ g ∈ groupByParent l, ∀ a ∈ g, ∀ b ∈ g, a.parent = b.parent := by
  induction l with
  | nil => simp [groupByParent]
  | cons a as ih =>
    unfold groupByParent
    split
    · simp
    next gs h =>
      rw [h] at ih
      intro g hg
      rcases List.mem_cons.1 hg with rfl | hg
      · simp
      · exact ih g (List.mem_cons_of_mem _ hg)
    next b bs gs h =>
      rw [h] at ih
      split
      next he =>
        intro g hg
        rcases List.mem_cons.1 hg with rfl | hg
        · have ib := ih (b :: bs) (List.mem_cons_self ..)
          intro x hx y hy
          have key : ∀ z ∈ a :: b :: bs, z.parent = b.parent := by
            intro z hz
            rcases List.mem_cons.1 hz with rfl | hz
            · exact he
            · exact ib z hz b (List.mem_cons_self ..)
          rw [key x hx, key y hy]
        · exact ih g (List.mem_cons_of_mem _ hg)
      next =>
        intro g hg
        rcases List.mem_cons.1 hg with rfl | hg
        · simp
        · exact ih g hg

theorem collapsePreserveTokens_spec (l : List Net) (hl : ∀ n ∈ l, WF n) :
    (∀ n ∈ collapsePreserveTokens l, WF n) ∧ SameDen (collapsePreserveTokens l) l ∧
    (∀ n ∈ collapsePreserveTokens l, ∃ a ∈ l, n.token = a.token ∧
      (n.parent = a.parent ∨ n.parent = a.token) ∧
      ∀ v x, Mem n v x → ∃ b ∈ l, b.parent = a.parent ∧ Mem b v x) := by
  have wg : ∀ g ∈ groupByParent (isort parentLe l), ∀ n ∈ g, n ∈ l := by
    intro g hg n hn
    have : n ∈ (groupByParent (isort parentLe l)).flatten := List.mem_flatten.2 ⟨g, hg, hn⟩
    rw [groupByParent_flatten] at this
    exact mem_isort.1 this
  have wc : ∀ d ∈ (groupByParent (isort parentLe l)).map collapse, ∀ n ∈ d, WF n := by
    intro d hd n hn
    obtain ⟨g, hg, rfl⟩ := List.mem_map.1 hd
    exact (collapse_spec g (fun n hn => hl n (wg g hg n hn))).1 n hn
  obtain ⟨h1, h2⟩ := dedupOuter_spec ((groupByParent (isort parentLe l)).map collapse) [] (by simp) wc
  refine ⟨?_, ?_, ?_⟩
  · intro n hn
    obtain ⟨d, hd, hnd⟩ := List.mem_flatten.1 hn
    rcases h1 d hd with h | h
    · cases h
    · exact wc d h n hnd
  · intro v x
    unfold collapsePreserveTokens
    rw [h2 v x]
    simp only [List.flatten_nil, den_nil, false_or]
    rw [den_flatten]
    constructor
    · rintro ⟨d, hd, hx⟩
      obtain ⟨g, hg, rfl⟩ := List.mem_map.1 hd
      obtain ⟨n, hn, hm⟩ := ((collapse_spec g (fun n hn => hl n (wg g hg n hn))).2 v x).1 hx
      exact ⟨n, wg g hg n hn, hm⟩
    · rintro ⟨n, hn, hm⟩
      have hn' : n ∈ isort parentLe l := mem_isort.2 hn
      rw [← groupByParent_flatten (isort parentLe l)] at hn'
      obtain ⟨g, hg, hng⟩ := List.mem_flatten.1 hn'
      exact ⟨collapse g, List.mem_map_of_mem hg,
        ((collapse_spec g (fun n hn => hl n (wg g hg n hn))).2 v x).2 ⟨n, hng, hm⟩⟩
  · intro n hn
    obtain ⟨d, hd, hnd⟩ := List.mem_flatten.1 hn
    rcases h1 d hd with h | h
    · cases h
    obtain ⟨g, hg, rfl⟩ := List.mem_map.1 h
    have wgg : ∀ n ∈ g, WF n := fun n hn => hl n (wg g hg n hn)
    obtain ⟨a, ha, e1, e2⟩ := collapse_tokens g wgg n hnd
    refine ⟨a, wg g hg a ha, e1, e2, ?_⟩
    intro v x hm
    obtain ⟨b, hb, hbm⟩ := ((collapse_spec g wgg).2 v x).1 ⟨n, hnd, hm⟩
    exact ⟨b, wg g hg b hb, groupByParent_same _ g hg b hb a ha, hbm⟩

end Verif
