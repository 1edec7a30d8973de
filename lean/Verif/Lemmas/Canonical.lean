import Verif.Lemmas.Collapse

namespace Verif
open Spec Nacaddr

/-! ### halves of a network -/

/-- lower half -/
def half0 (n : Net) : Net := { ver := n.ver, addr := n.addr, plen := n.plen + 1 }
/-- upper half -/
def half1 (n : Net) : Net :=
  { ver := n.ver, addr := n.addr + 2 ^ (n.ver.bits - (n.plen + 1)), plen := n.plen + 1 }

theorem pow_half {n : Net} (h : n.plen < n.ver.bits) :
    2 ^ (n.ver.bits - n.plen) = 2 * 2 ^ (n.ver.bits - (n.plen + 1)) := by
  have : n.ver.bits - n.plen = (n.ver.bits - (n.plen + 1)) + 1 := by omega
  rw [this, Nat.pow_succ]; omega

theorem wf_half0 {n : Net} (w : WF n) (h : n.plen < n.ver.bits) : WF (half0 n) := by
  have hp := pow_half h
  refine ⟨h, Nat.dvd_trans (two_pow_dvd ?_) w.aligned, ?_⟩
  · simp only [half0]; omega
  · have := w.range; simp only [half0]; omega

theorem wf_half1 {n : Net} (w : WF n) (h : n.plen < n.ver.bits) : WF (half1 n) := by
  have hp := pow_half h
  refine ⟨h, ?_, ?_⟩
  · simp only [half1]
    exact Nat.dvd_add (Nat.dvd_trans (two_pow_dvd (by omega)) w.aligned) (Nat.dvd_refl _)
  · have := w.range; simp only [half1]; omega

theorem mem_halves {n : Net} (h : n.plen < n.ver.bits) (v x) :
    Mem n v x ↔ Mem (half0 n) v x ∨ Mem (half1 n) v x := by
  have hp := pow_half h
  simp only [Mem, half0, half1]
  constructor
  · rintro ⟨e, k1, k2⟩
    rcases Nat.lt_or_ge x (n.addr + 2 ^ (n.ver.bits - (n.plen + 1))) with h | h
    · exact .inl ⟨e, k1, h⟩
    · exact .inr ⟨e, h, by omega⟩
  · rintro (⟨e, k1, k2⟩ | ⟨e, k1, k2⟩) <;> exact ⟨e, by omega, by omega⟩

theorem siblings_halves {n a b : Net} (w : WF n) (h : n.plen < n.ver.bits)
    (ha : block a = block (half0 n)) (hb : block b = block (half1 n)) : Siblings a b := by
  simp only [block, half0, half1, Prod.mk.injEq] at ha hb
  obtain ⟨a1, a2, a3⟩ := ha
  obtain ⟨b1, b2, b3⟩ := hb
  refine ⟨by rw [a1, b1], by rw [a3, b3], by omega, by rw [b2, a2, a1, a3], ?_⟩
  rw [a1, a2, a3]
  have : n.ver.bits - (n.plen + 1) + 1 = n.ver.bits - n.plen := by omega
  rw [this]; exact w.aligned

/-! ### a sibling-free list that covers a network contains a member covering it -/

theorem exists_cover {l : List Net} (hw : ∀ n ∈ l, WF n) (hs : SiblingFree l) :
    ∀ (k : Nat) (s : Net), s.ver.bits - s.plen = k → WF s →
      (∀ v x, Mem s v x → Den l v x) → ∃ m ∈ l, ∀ v x, Mem s v x → Mem m v x := by
  intro k
  induction k with
  | zero =>
    intro s hk ws hc
    obtain ⟨m, hm, hx⟩ := hc s.ver s.addr mem_self
    refine ⟨m, hm, ?_⟩
    refine nested_of_le ws (hw m hm) mem_self hx ?_
    have := (hw m hm).plen_le
    rw [hx.1] at this
    omega
  | succ k ih =>
    intro s hk ws hc
    have hlt : s.plen < s.ver.bits := by omega
    have e0 : (half0 s).ver.bits - (half0 s).plen = k := by simp only [half0]; omega
    have e1 : (half1 s).ver.bits - (half1 s).plen = k := by simp only [half1]; omega
    obtain ⟨m0, hm0, c0⟩ := ih (half0 s) e0 (wf_half0 ws hlt)
      (fun v x h => hc v x ((mem_halves hlt v x).2 (.inl h)))
    obtain ⟨m1, hm1, c1⟩ := ih (half1 s) e1 (wf_half1 ws hlt)
      (fun v x h => hc v x ((mem_halves hlt v x).2 (.inr h)))
    have p0 := c0 _ _ mem_self
    have p1 := c1 _ _ mem_self
    have s0 : Mem s (half0 s).ver (half0 s).addr := (mem_halves hlt _ _).2 (.inl mem_self)
    have s1 : Mem s (half1 s).ver (half1 s).addr := (mem_halves hlt _ _).2 (.inr mem_self)
    rcases Nat.lt_or_ge s.plen m0.plen with h0 | h0
    · rcases Nat.lt_or_ge s.plen m1.plen with h1 | h1
      · -- both members are exactly the halves: siblings
        exfalso
        have b0 : block m0 = block (half0 s) := by
          refine block_eq_of_sub (hw _ hm0) (wf_half0 ws hlt) ?_ c0
          exact nested_of_le (hw _ hm0) (wf_half0 ws hlt) p0 mem_self h0
        have b1 : block m1 = block (half1 s) := by
          refine block_eq_of_sub (hw _ hm1) (wf_half1 ws hlt) ?_ c1
          exact nested_of_le (hw _ hm1) (wf_half1 ws hlt) p1 mem_self h1
        exact hs m0 hm0 m1 hm1 (siblings_halves ws hlt b0 b1)
      · exact ⟨m1, hm1, nested_of_le ws (hw _ hm1) s1 p1 h1⟩
    · exact ⟨m0, hm0, nested_of_le ws (hw _ hm0) s0 p0 h0⟩

theorem disjoint_unique {l : List Net} (hd : Disjoint l) {a b : Net} (ha : a ∈ l) (hb : b ∈ l)
    {v x} (h1 : Mem a v x) (h2 : Mem b v x) : a = b := by
  induction l with
  | nil => cases ha
  | cons c cs ih =>
    unfold Disjoint at hd
    rw [List.pairwise_cons] at hd
    rcases List.mem_cons.1 ha with rfl | ha'
    · rcases List.mem_cons.1 hb with rfl | hb'
      · rfl
      · exact absurd ⟨h1, h2⟩ (hd.1 b hb' v x)
    · rcases List.mem_cons.1 hb with rfl | hb'
      · exact absurd ⟨h2, h1⟩ (hd.1 a ha' v x)
      · exact ih hd.2 ha' hb'

theorem block_inj_of_disjoint {l : List Net} (hd : Disjoint l) {a b : Net} (ha : a ∈ l) (hb : b ∈ l)
    (h : block a = block b) : a = b :=
  disjoint_unique hd ha hb (mem_self (n := a)) ((mem_congr_block h _ _).1 mem_self)

/-- one inclusion of the uniqueness of canonical forms -/
theorem canonical_sub {l m : List Net} (wl : ∀ n ∈ l, WF n) (wm : ∀ n ∈ m, WF n)
    (cl : Canonical l) (cm : Canonical m) (h : SameDen l m) : ∀ n ∈ l, block n ∈ m.map block := by
  intro n hn
  obtain ⟨k, hk, c⟩ := exists_cover wm cm.sibfree _ n rfl (wl n hn)
    (fun v x hx => (h v x).1 ⟨n, hn, hx⟩)
  obtain ⟨n', hn', c'⟩ := exists_cover wl cl.sibfree _ k rfl (wm k hk)
    (fun v x hx => (h v x).2 ⟨k, hk, hx⟩)
  have : n = n' := disjoint_unique cl.disjoint hn hn' mem_self (c' _ _ (c _ _ mem_self))
  subst this
  exact List.mem_map.2 ⟨k, hk, block_eq_of_sub (wm k hk) (wl n hn) c' c⟩

/-- order on blocks -/
def BlockLt (a b : Ver × Nat × Nat) : Prop :=
  a.1.num < b.1.num ∨ (a.1 = b.1 ∧ (a.2.1 < b.2.1 ∨ (a.2.1 = b.2.1 ∧ a.2.2 < b.2.2)))

theorem blockLt_irrefl (a : Ver × Nat × Nat) : ¬ BlockLt a a := by
  unfold BlockLt; omega

theorem blockLt_trans {a b c : Ver × Nat × Nat} (h1 : BlockLt a b) (h2 : BlockLt b c) :
    BlockLt a c := by
  unfold BlockLt at *
  rcases h1 with h1 | ⟨e1, h1⟩ <;> rcases h2 with h2 | ⟨e2, h2⟩
  · left; omega
  · left; rw [← e2]; exact h1
  · left; rw [e1]; exact h2
  · right; refine ⟨e1.trans e2, ?_⟩; omega

/-- strictly sorted lists with the same members are equal -/
theorem eq_of_sorted {R : α → α → Prop} (irr : ∀ a, ¬ R a a) (tr : ∀ {a b c}, R a b → R b c → R a c) :
    ∀ {l m : List α}, l.Pairwise R → m.Pairwise R → (∀ a, a ∈ l ↔ a ∈ m) → l = m := by
  intro l
  induction l with
  | nil =>
    intro m _ _ h
    cases m with
    | nil => rfl
    | cons b _ => exact absurd ((h b).2 (List.mem_cons_self ..)) (by simp)
  | cons a as ih =>
    intro m hl hm h
    cases m with
    | nil => exact absurd ((h a).1 (List.mem_cons_self ..)) (by simp)
    | cons b bs =>
      rw [List.pairwise_cons] at hl hm
      have hab : a = b := by
        rcases List.mem_cons.1 ((h a).1 (List.mem_cons_self ..)) with e | hab
        · exact e
        · rcases List.mem_cons.1 ((h b).2 (List.mem_cons_self ..)) with e | hba
          · exact e.symm
          · exact absurd (tr (hl.1 b hba) (hm.1 a hab)) (irr a)
      subst hab
      congr 1
      apply ih hl.2 hm.2
      intro c
      constructor
      · intro hc
        rcases List.mem_cons.1 ((h c).1 (List.mem_cons_of_mem _ hc)) with e | hc'
        · subst e; exact absurd (hl.1 c hc) (irr c)
        · exact hc'
      · intro hc
        rcases List.mem_cons.1 ((h c).2 (List.mem_cons_of_mem _ hc)) with e | hc'
        · subst e; exact absurd (hm.1 c hc) (irr c)
        · exact hc'

theorem sorted_blocks {l : List Net} (h : l.Pairwise KeyLt) : (l.map block).Pairwise BlockLt := by
  rw [List.pairwise_map]
  exact h.imp (fun h => h)

theorem canonical_unique {l m : List Net} (wl : ∀ n ∈ l, WF n) (wm : ∀ n ∈ m, WF n)
    (cl : Canonical l) (cm : Canonical m) (h : SameDen l m) : l.map block = m.map block := by
  apply eq_of_sorted blockLt_irrefl blockLt_trans (sorted_blocks cl.sorted) (sorted_blocks cm.sorted)
  intro a
  constructor
  · intro ha
    obtain ⟨n, hn, rfl⟩ := List.mem_map.1 ha
    exact canonical_sub wl wm cl cm h n hn
  · intro ha
    obtain ⟨n, hn, rfl⟩ := List.mem_map.1 ha
    exact canonical_sub wm wl cm cl h.symm n hn

/-! ### minimality -/

/-- a list whose members each hit a distinct member of a nodup list is at least as long -/
theorem length_le_of_surj {α β : Type} [DecidableEq β] (f : α → β) :
    ∀ (m : List α) (l : List β), l.Nodup → (∀ b ∈ l, ∃ a ∈ m, f a = b) → l.length ≤ m.length := by
  intro m
  induction m with
  | nil =>
    intro l _ h
    cases l with
    | nil => simp
    | cons b _ => obtain ⟨a, ha, _⟩ := h b (List.mem_cons_self ..); cases ha
  | cons a as ih =>
    intro l hn h
    have h1 := ih (l.erase (f a)) (hn.erase _) (by
      intro b hb
      rw [hn.mem_erase_iff] at hb
      obtain ⟨a', ha', e⟩ := h b hb.2
      rcases List.mem_cons.1 ha' with rfl | ha'
      · exact absurd e.symm hb.1
      · exact ⟨a', ha', e⟩)
    have h2 : l.length ≤ (l.erase (f a)).length + 1 := by
      rw [List.length_erase]; split <;> omega
    simp only [List.length_cons]
    omega

theorem canonical_minimal {l m : List Net} (wl : ∀ n ∈ l, WF n) (wm : ∀ n ∈ m, WF n)
    (cl : Canonical l) (h : SameDen l m) : l.length ≤ m.length := by
  classical
  have key : ∀ k ∈ m, ∃ n ∈ l, ∀ v x, Mem k v x → Mem n v x := fun k hk =>
    exists_cover wl cl.sibfree _ k rfl (wm k hk) (fun v x hx => (h v x).2 ⟨k, hk, hx⟩)
  let f : Net → Net := fun k =>
    if hk : k ∈ m then (key k hk).choose else k
  have hn : l.Nodup := by
    refine cl.sorted.imp ?_
    intro a b hab e
    subst e
    unfold KeyLt at hab
    omega
  refine length_le_of_surj f m l hn ?_
  intro b hb
  obtain ⟨k, hk, hx⟩ := (h b.ver b.addr).1 ⟨b, hb, mem_self⟩
  refine ⟨k, hk, ?_⟩
  have hf : f k = (key k hk).choose := dif_pos hk
  have hc := (key k hk).choose_spec
  rw [hf]
  exact disjoint_unique cl.disjoint hc.1 hb (hc.2 _ _ hx) mem_self

/-! ### the collapse loop establishes the canonical form -/

/-- stack invariant: reversed stack is canonical -/
structure StackInv (ret : List Net) : Prop where
  wf : ∀ n ∈ ret, WF n
  /-- head is last: everything below is strictly before it -/
  before : ret.Pairwise (fun b a => a.ver.num < b.ver.num ∨
    (a.ver = b.ver ∧ a.addr + 2 ^ (a.ver.bits - a.plen) ≤ b.addr))
  sib : ret.Pairwise (fun b a => ¬ Siblings a b)

/-- the incoming address is not before the top of the stack -/
def TopLe (ret : List Net) (a : Net) : Prop := ∀ p ∈ ret, KeyLt p a ∨ block p = block a

theorem keyLt_trans {a b c : Net} (h1 : KeyLt a b) (h2 : KeyLt b c) : KeyLt a c :=
  blockLt_trans (a := block a) (b := block b) (c := block c) h1 h2

theorem keyLt_congr {a b c d : Net} (h1 : block a = block c) (h2 : block b = block d) :
    KeyLt a b ↔ KeyLt c d := by
  have : BlockLt (block a) (block b) ↔ BlockLt (block c) (block d) := by rw [h1, h2]
  exact this

theorem siblings_congr {a b c d : Net} (h1 : block a = block c) (h2 : block b = block d) :
    Siblings a b ↔ Siblings c d := by
  simp only [block, Prod.mk.injEq] at h1 h2
  obtain ⟨a1, a2, a3⟩ := h1
  obtain ⟨b1, b2, b3⟩ := h2
  unfold Siblings
  rw [a1, a2, a3, b1, b2, b3]

/-- `a` ends before `b` starts -/
def EndsBefore (a b : Net) : Prop :=
  a.ver.num < b.ver.num ∨ (a.ver = b.ver ∧ a.addr + 2 ^ (a.ver.bits - a.plen) ≤ b.addr)

theorem endsBefore_congr {a b c d : Net} (h1 : block a = block c) (h2 : block b = block d) :
    EndsBefore a b ↔ EndsBefore c d := by
  simp only [block, Prod.mk.injEq] at h1 h2
  obtain ⟨a1, a2, a3⟩ := h1
  obtain ⟨b1, b2, b3⟩ := h2
  unfold EndsBefore
  rw [a1, a2, a3, b1, b2]

theorem endsBefore_disj {a b : Net} (h : EndsBefore a b) : ∀ v x, ¬ (Mem a v x ∧ Mem b v x) := by
  rintro v x ⟨⟨a1, a2, a3⟩, b1, b2, b3⟩
  unfold EndsBefore at h
  rcases h with h | ⟨_, h⟩
  · rw [a1, b1] at h; omega
  · omega

theorem endsBefore_keyLt {a b : Net} (h : EndsBefore a b) : KeyLt a b := by
  unfold EndsBefore at h
  unfold KeyLt
  have := Nat.two_pow_pos (a.ver.bits - a.plen)
  rcases h with h | ⟨e, h⟩
  · exact .inl h
  · exact .inr ⟨e, .inl (by omega)⟩

/-- sorted order + no inclusion + `p ≤ a` gives `p` ends before `a` -/
theorem endsBefore_of_not_sub {p a : Net} (wp : WF p) (wa : WF a)
    (hle : KeyLt p a ∨ block p = block a) (hns : ¬ (∀ v x, Mem a v x → Mem p v x)) :
    EndsBefore p a := by
  have pp := Nat.two_pow_pos (p.ver.bits - p.plen)
  unfold EndsBefore
  rcases hle with hle | hle
  · unfold KeyLt at hle
    rcases hle with h | ⟨e, h⟩
    · exact .inl h
    · refine .inr ⟨e, ?_⟩
      rcases Nat.lt_or_ge a.addr (p.addr + 2 ^ (p.ver.bits - p.plen)) with hlt | hge
      · exfalso
        have mp : Mem p a.ver a.addr := ⟨e, by omega, hlt⟩
        rcases Nat.le_total p.plen a.plen with hl | hl
        · exact hns (nested_of_le wa wp mem_self mp hl)
        · have hsub := nested_of_le wp wa mp mem_self hl
          obtain ⟨_, q2, q3, _⟩ := plen_le_of_sub wp wa hsub
          have e1 : p.addr = a.addr := by omega
          have e2 : p.plen = a.plen := by omega
          apply hns
          intro v x hx
          exact (mem_congr_block (a := a) (b := p) (by simp [block, e, e1, e2]) v x).1 hx
      · exact hge
  · exact absurd (fun v x => (mem_congr_block hle v x).2) hns

theorem endsBefore_trans_super {r p a : Net} (_wp : WF p) (_wa : WF a) (_h : EndsBefore r p)
    (sib : Siblings p a) (c : Str) (wpc : WF (p.addComment c)) :
    EndsBefore r (p.addComment c).supernet := by
  have sib' := (siblings_addComment c).2 sib
  obtain ⟨f1, f2, _⟩ := supernet_fields wpc sib'
  unfold EndsBefore at *
  rw [f1, f2, ver_addComment, addr_addComment]
  exact _h

theorem push0_inv : ∀ (ret : List Net) (a : Net), StackInv ret → WF a → TopLe ret a →
    StackInv (push0 ret a) ∧
    (∀ q ∈ push0 ret a, (KeyLt q a ∨ block q = block a)) := by
  intro ret
  induction ret with
  | nil =>
    intro a _ wa _
    refine ⟨⟨by simpa [push0] using wa, by simp [push0], by simp [push0]⟩, ?_⟩
    intro q hq
    simp only [push0, List.mem_singleton] at hq
    subst hq; exact .inr rfl
  | cons p rest ih =>
    intro a hi wa ht
    have wp := hi.wf p (List.mem_cons_self ..)
    have hb := List.pairwise_cons.1 hi.before
    have hs := List.pairwise_cons.1 hi.sib
    have hrest : StackInv rest := ⟨fun n hn => hi.wf n (List.mem_cons_of_mem _ hn), hb.2, hs.2⟩
    have hpa := ht p (List.mem_cons_self ..)
    unfold push0
    split
    next hsub =>
      -- subsumed
      have bp := block_addComment p a.text
      refine ⟨⟨?_, ?_, ?_⟩, ?_⟩
      · intro n hn
        rcases List.mem_cons.1 hn with rfl | hn
        · exact (wf_addComment _).2 wp
        · exact hrest.wf n hn
      · refine List.pairwise_cons.2 ⟨?_, hb.2⟩
        intro q hq
        exact (endsBefore_congr rfl bp).2 (hb.1 q hq)
      · refine List.pairwise_cons.2 ⟨?_, hs.2⟩
        intro q hq h
        exact hs.1 q hq ((siblings_congr rfl bp).1 h)
      · intro q hq
        rcases List.mem_cons.1 hq with rfl | hq
        · rcases hpa with h | h
          · exact .inl ((keyLt_congr bp rfl).2 h)
          · exact .inr (bp.trans h)
        · exact ht q (List.mem_cons_of_mem _ hq)
    next hsub =>
      have hns : ¬ (∀ v x, Mem a v x → Mem p v x) := fun h => hsub ((subnetOf_iff wa wp).2 h)
      have eb := endsBefore_of_not_sub wp wa hpa hns
      split
      next hm =>
        have sib := (mergeable_iff wp wa).1 hm
        have sib' := (siblings_addComment a.text).2 sib
        have wpc := (wf_addComment a.text).2 wp
        have wsup := supernet_wf wpc wa sib'
        obtain ⟨f1, f2, f3⟩ := supernet_fields wpc sib'
        rw [ver_addComment] at f1
        rw [addr_addComment] at f2
        rw [plen_addComment] at f3
        have supLt : KeyLt (p.addComment a.text).supernet p := by
          unfold KeyLt
          rw [f1, f2, f3]
          have := sib.2.2.1
          exact .inr ⟨rfl, .inr ⟨rfl, by omega⟩⟩
        have supLe : KeyLt (p.addComment a.text).supernet a := by
          rcases hpa with h | h
          · exact keyLt_trans supLt h
          · exact (keyLt_congr rfl h).1 supLt
        obtain ⟨i1, i2⟩ := ih (p.addComment a.text).supernet hrest wsup (by
          intro q hq
          exact .inl (endsBefore_keyLt
            (endsBefore_trans_super wp wa (hb.1 q hq) sib a.text wpc)))
        refine ⟨i1, ?_⟩
        intro q hq
        rcases i2 q hq with h | h
        · exact .inl (keyLt_trans h supLe)
        · exact .inl ((keyLt_congr h rfl).2 supLe)
      next hm =>
        refine ⟨⟨?_, ?_, ?_⟩, ?_⟩
        · intro n hn
          rcases List.mem_cons.1 hn with rfl | hn
          · exact wa
          · exact hi.wf n hn
        · refine List.pairwise_cons.2 ⟨?_, hi.before⟩
          intro q hq
          rcases List.mem_cons.1 hq with rfl | hq
          · exact eb
          · -- transitivity of EndsBefore
            have h1 : EndsBefore q p := hb.1 q hq
            unfold EndsBefore at *
            have pp := Nat.two_pow_pos (p.ver.bits - p.plen)
            rcases h1 with h1 | ⟨e1, h1⟩ <;> rcases eb with h2 | ⟨e2, h2⟩
            · left; omega
            · left; rw [← e2]; exact h1
            · left; rw [e1]; exact h2
            · right; exact ⟨e1.trans e2, by omega⟩
        · refine List.pairwise_cons.2 ⟨?_, hi.sib⟩
          intro q hq
          rcases List.mem_cons.1 hq with rfl | hq
          · exact fun h => hm ((mergeable_iff wp wa).2 h)
          · -- q, p, a in order: q and a cannot be adjacent
            intro h
            have h1 : EndsBefore q p := hb.1 q hq
            obtain ⟨s1, s2, s3, s4, s5⟩ := h
            have pp := Nat.two_pow_pos (p.ver.bits - p.plen)
            unfold EndsBefore at h1 eb
            rcases h1 with h1 | ⟨e1, h1⟩ <;> rcases eb with h2 | ⟨e2, h2⟩
            · rw [s1] at h1; omega
            · rw [s1, e2] at h1; omega
            · rw [← e1, s1] at h2; omega
            · omega
        · intro q hq
          rcases List.mem_cons.1 hq with rfl | hq
          · exact .inr rfl
          · exact ht q hq

theorem foldl_push0_inv : ∀ (l ret : List Net), StackInv ret → (∀ n ∈ l, WF n) →
    l.Pairwise (fun a b => KeyLt a b ∨ block a = block b) → (∀ a ∈ l, TopLe ret a) →
    StackInv (l.foldl push0 ret) := by
  intro l
  induction l with
  | nil => intro ret h _ _ _; exact h
  | cons a as ih =>
    intro ret hi hw hs ht
    rw [List.pairwise_cons] at hs
    obtain ⟨i1, i2⟩ := push0_inv ret a hi (hw a (List.mem_cons_self ..))
      (ht a (List.mem_cons_self ..))
    refine ih _ i1 (fun n hn => hw n (List.mem_cons_of_mem _ hn)) hs.2 ?_
    intro b hb q hq
    rcases i2 q hq with h | h <;> rcases hs.1 b hb with h' | h'
    · exact .inl (keyLt_trans h h')
    · exact .inl ((keyLt_congr rfl h').1 h)
    · exact .inl ((keyLt_congr h.symm rfl).1 h')
    · exact .inr (h.trans h')

theorem sortAddrList_sorted (l : List Net) (hl : ∀ n ∈ l, WF n) :
    (sortAddrList l).Pairwise (fun a b => KeyLt a b ∨ block a = block b) := by
  have h := isort_sorted keyLe_total l
  refine List.Pairwise.imp_of_mem ?_ h
  intro a b ha hb h
  exact (keyLe_iff (hl a (mem_isort.1 ha)) (hl b (mem_isort.1 hb))).1 h

theorem canonical_of_inv {ret : List Net} (h : StackInv ret) : Canonical ret.reverse := by
  refine ⟨?_, ?_, ?_⟩
  · rw [List.pairwise_reverse]
    exact h.before.imp (fun h => endsBefore_keyLt h)
  · unfold Disjoint
    rw [List.pairwise_reverse]
    exact h.before.imp (fun h => endsBefore_disj h)
  · intro a ha b hb hab
    rw [List.mem_reverse] at ha hb
    -- siblings are distinct and ordered, so they appear in stack order
    have key : ∀ {l : List Net}, l.Pairwise (fun b a => EndsBefore a b) →
        l.Pairwise (fun b a => ¬ Siblings a b) → ∀ {a b}, a ∈ l → b ∈ l → Siblings a b → False := by
      intro l
      induction l with
      | nil => intro _ _ a b ha; cases ha
      | cons c cs ih =>
        intro h1 h2 a b ha hb hab
        rw [List.pairwise_cons] at h1 h2
        rcases List.mem_cons.1 ha with rfl | ha' <;> rcases List.mem_cons.1 hb with rfl | hb'
        · obtain ⟨_, _, _, h4, _⟩ := hab
          have := Nat.two_pow_pos (a.ver.bits - a.plen)
          omega
        · have := h1.1 b hb'
          obtain ⟨e, _, _, h4, _⟩ := hab
          unfold EndsBefore at this
          have p1 := Nat.two_pow_pos (b.ver.bits - a.plen)
          have p2 := Nat.two_pow_pos (b.ver.bits - b.plen)
          rw [e] at this
          rw [e] at h4
          omega
        · exact h2.1 a ha' hab
        · exact ih h1.2 h2.2 ha' hb' hab
    exact key h.before h.sib ha hb hab

theorem collapse_canonical (l : List Net) (hl : ∀ n ∈ l, WF n) : Canonical (collapse l) := by
  apply canonical_of_inv
  apply foldl_push0_inv
  · exact ⟨by simp, List.Pairwise.nil, List.Pairwise.nil⟩
  · intro n hn; exact hl n (mem_isort.1 hn)
  · exact sortAddrList_sorted l hl
  · intro a _ p hp; cases hp

end Verif
