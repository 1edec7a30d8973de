import Verif.Lemmas.Services

/-! Reverse lookups: `GetIpParents`, `GetNetParents`, `GetServiceParents`. -/

namespace Verif
namespace Naming
open Spec PyStr Fix

/-! ### the relation -/

theorem alphaHead_iff {v : Str} : alphaHead v = true ↔ LetterFirst v := by
  unfold alphaHead LetterFirst isAlphaA
  cases v with
  | nil => simp
  | cons c cs => simp

theorem digitHead_iff {v : Str} : digitHead v = true ↔ DigitFirst v := by
  unfold digitHead DigitFirst isDigit
  cases v with
  | nil => simp
  | cons c cs => simp

theorem above_trans {d leaf q x y} (h : Above d leaf q x) (h' : Above d leaf x y) : Above d leaf q y := by
  obtain ⟨s, h1, h2, h3⟩ := h
  obtain ⟨s', g1, g2, g3⟩ := h'
  exact ⟨s, h1, h2, reach_trans (reach_trans g3 (.step .refl g1 g2)) h3⟩

theorem above_iff {d leaf x s q} (h : Reach d leaf x s) (h1 : HasValue d s q) (h2 : ¬ leaf q) : Above d leaf q x :=
  ⟨s, h1, h2, h⟩

theorem reach_above {d leaf x s} (h : Reach d leaf x s) : x = s ∨ Above d leaf s x := by
  cases h with
  | refl => exact .inl rfl
  | step h1 h2 h3 => exact .inr ⟨_, h2, h3, h1⟩

theorem above_irrefl {d leaf} (h : NoLoop d leaf) (x : Str) : ¬ Above d leaf x x := by
  rintro ⟨s, h1, h2, h3⟩
  exact h s x h1 h2 h3

theorem hasValue_iff {d : Defs} (hw : ItemsOk d) {e} (he : e ∈ d) {v : Str} :
    hasValue v e.2 = true ↔ ∃ i ∈ e.2, IsItem i v := by
  unfold hasValue
  rw [List.contains_iff_mem, List.mem_map]
  constructor
  · rintro ⟨i, hi, rfl⟩
    obtain ⟨v, hv⟩ := hw e he i hi
    rw [itemTok_item hv]
    exact ⟨i, hi, hv⟩
  · rintro ⟨i, hi, hv⟩
    exact ⟨i, hi, itemTok_item hv⟩

/-- keys are distinct: lookups see every entry -/
theorem lookup_of_mem : ∀ {d : Defs} (_ : (d.map Prod.fst).Nodup) {e} (_ : e ∈ d), d.lookup e.1 = some e.2
  | [], _, e, he => by cases he
  | x :: xs, h, e, he => by
    rw [List.map_cons, List.nodup_cons] at h
    rw [List.lookup_cons]
    rcases List.mem_cons.1 he with rfl | he
    · simp
    · have : (e.1 == x.1) = false := by
        simpa using fun hh : e.1 = x.1 => h.1 (hh ▸ List.mem_map.2 ⟨e, he, rfl⟩)
      rw [this]
      exact lookup_of_mem h.2 he

theorem filter_length_lt {α : Type} {p q : α → Bool} : ∀ {l : List α}, (∀ x, p x = true → q x = true) →
    (∃ x ∈ l, q x = true ∧ p x = false) → (l.filter p).length < (l.filter q).length
  | [], _, h => by obtain ⟨x, hx, _⟩ := h; cases hx
  | y :: ys, hpq, h => by
    have hle : ∀ l : List α, (l.filter p).length ≤ (l.filter q).length := by
      intro l
      induction l with
      | nil => simp
      | cons z zs ih =>
        rw [List.filter_cons, List.filter_cons]
        cases hz : p z with
        | true => rw [if_pos rfl, if_pos (hpq z hz)]; simp only [List.length_cons]; omega
        | false =>
          rw [if_neg (by simp)]
          split
          · simp only [List.length_cons]; omega
          · exact ih
    obtain ⟨x, hx, h1, h2⟩ := h
    rw [List.filter_cons, List.filter_cons]
    rcases List.mem_cons.1 hx with rfl | hx
    · rw [h1, h2, if_neg (by simp), if_pos rfl]
      have := hle ys
      simp only [List.length_cons]; omega
    · have ih := filter_length_lt hpq ⟨x, hx, h1, h2⟩
      cases hy : p y with
      | true => rw [if_pos rfl, if_pos (hpq y hy)]; simp only [List.length_cons]; omega
      | false =>
        rw [if_neg (by simp)]
        split
        · simp only [List.length_cons]; omega
        · exact ih

theorem above_key {d : Defs} {s v} (h : HasValue d s v) : s ∈ d.map Prod.fst := by
  obtain ⟨items, _, h1, _⟩ := h
  exact lookup_key h1

/-- With finitely many tokens and no loop, going up terminates. -/
theorem above_acc {d : Defs} {leaf : Str → Prop} (h : NoLoop d leaf) (q : Str) :
    Acc (fun x y => HasValue d x y ∧ ¬ leaf y) q := by
  have hc : ∀ y x, Decidable (Above d leaf y x) := fun _ _ => Classical.propDecidable _
  let μ : Str → Nat := fun y => ((d.map Prod.fst).filter (fun x => decide (Above d leaf y x))).length
  have hlt : ∀ x y, HasValue d x y ∧ ¬ leaf y → μ x < μ y := by
    rintro x y ⟨h1, h2⟩
    refine filter_length_lt ?_ ⟨x, above_key h1, ?_, ?_⟩
    · intro z hz
      rw [decide_eq_true_eq] at hz ⊢
      exact above_trans ⟨x, h1, h2, .refl⟩ hz
    · rw [decide_eq_true_eq]; exact ⟨x, h1, h2, .refl⟩
    · rw [decide_eq_false_iff_not]; exact above_irrefl h x
  exact Subrelation.accessible (r := InvImage (· < ·) μ) (fun {a b} hab => hlt a b hab)
    (InvImage.accessible μ (Nat.lt_wfRel.wf.apply _))

/-! ### one base parent -/

/-- What the loops do for one base parent. -/
inductive StepOk (par : Str → Prop) (rec : Str → Except Err (List Str)) (bp : Str) (acc : List Str) :
    List Str → Prop
  | old : bp ∈ acc → StepOk par rec bp acc acc
  | up {r} : bp ∉ acc → par bp → rec bp = .ok r → StepOk par rec bp acc (acc ++ bp :: r)
  | top : bp ∉ acc → ¬ par bp → StepOk par rec bp acc (acc ++ [bp])

/-- All base parents in turn. -/
inductive Steps (par : Str → Prop) (rec : Str → Except Err (List Str)) :
    List Str → List Str → List Str → Prop
  | nil {acc} : Steps par rec [] acc acc
  | cons {bp bps acc acc1 acc2} : StepOk par rec bp acc acc1 → Steps par rec bps acc1 acc2 →
      Steps par rec (bp :: bps) acc acc2

/-- Closed under going up. -/
def Closed (A : Str → Str → Prop) (acc : List Str) : Prop := ∀ b ∈ acc, ∀ x, A b x → x ∈ acc

theorem steps_spec {par : Str → Prop} {rec : Str → Except Err (List Str)} {A : Str → Str → Prop}
    (htr : ∀ x y z, A x y → A y z → A x z) : ∀ {bps acc acc2}, Steps par rec bps acc acc2 →
    (∀ bp ∈ bps, ∀ r, rec bp = .ok r → ∀ x, x ∈ r ↔ A bp x) →
    (∀ bp ∈ bps, ¬ par bp → ∀ x, ¬ A bp x) → Closed A acc →
    Closed A acc2 ∧ ∀ x, x ∈ acc2 ↔ x ∈ acc ∨ ∃ bp ∈ bps, x = bp ∨ A bp x := by
  intro bps acc acc2 h
  induction h with
  | nil => intro _ _ hc; exact ⟨hc, fun x => by simp⟩
  | @cons bp bps acc acc1 acc2 hs _ ih =>
    intro hr hp hc
    have key : Closed A acc1 ∧ ∀ x, x ∈ acc1 ↔ x ∈ acc ∨ x = bp ∨ A bp x := by
      cases hs with
      | old hb =>
        refine ⟨hc, fun x => ⟨.inl, ?_⟩⟩
        rintro (h | rfl | h)
        · exact h
        · exact hb
        · exact hc bp hb x h
      | @up r hb hpar hrec =>
        have hx := hr bp (List.mem_cons_self ..) r hrec
        refine ⟨?_, fun x => by simp [hx]⟩
        intro b hbm x hbx
        rw [List.mem_append, List.mem_cons] at hbm ⊢
        rcases hbm with h | rfl | h
        · exact .inl (hc b h x hbx)
        · exact .inr (.inr ((hx x).2 hbx))
        · exact .inr (.inr ((hx x).2 (htr _ _ _ ((hx b).1 h) hbx)))
      | top hb hpar =>
        have hx := hp bp (List.mem_cons_self ..) hpar
        refine ⟨?_, fun x => by simp [hx x]⟩
        intro b hbm x hbx
        rw [List.mem_append, List.mem_singleton] at hbm ⊢
        rcases hbm with h | rfl
        · exact .inl (hc b h x hbx)
        · exact absurd hbx (hx x)
    obtain ⟨h1, h2⟩ := ih (fun b hb => hr b (List.mem_cons_of_mem _ hb))
      (fun b hb => hp b (List.mem_cons_of_mem _ hb)) key.1
    refine ⟨h1, fun x => ?_⟩
    rw [h2, key.2]
    simp only [List.mem_cons, exists_eq_or_imp, or_assoc]

/-! ### GetIpParents -/

theorem ipInner_cases {rec : Str → Except Err (List Str)} {bp : Str} (halpha : alphaHead bp = true) :
    ∀ (ds : Defs) (acc : List Str) (done : Bool),
    (ds.any (fun d => hasValue bp d.2) = false → ipParentsInner rec bp ds acc done = .ok (acc, done)) ∧
    (ds.any (fun d => hasValue bp d.2) = true → bp ∈ acc → ipParentsInner rec bp ds acc done = .ok (acc, true)) ∧
    (ds.any (fun d => hasValue bp d.2) = true → bp ∉ acc → ipParentsInner rec bp ds acc done =
      (rec bp >>= fun r => .ok (acc ++ bp :: r, true)))
  | [], acc, done => by simp [ipParentsInner]
  | d :: ds, acc, done => by
    have ih := ipInner_cases halpha (rec := rec) ds
    rw [List.any_cons]
    unfold ipParentsInner
    rw [halpha, Bool.and_true]
    cases hv : hasValue bp d.2 with
    | false =>
      simp only [Bool.false_or, Bool.false_eq_true, if_false]
      exact ih acc done
    | true =>
      simp only [Bool.true_or, if_true, true_implies]
      have htail : ∀ acc : List Str, bp ∈ acc → ipParentsInner rec bp ds acc true = .ok (acc, true) := by
        intro acc hb
        cases ha : ds.any (fun d => hasValue bp d.2) with
        | false => exact (ih acc true).1 ha
        | true => exact (ih acc true).2.1 ha hb
      refine ⟨by simp, ?_, ?_⟩
      · intro hb
        rw [if_pos (by simpa using hb)]
        exact htail acc hb
      · intro hb
        rw [if_neg (by simpa using hb)]
        cases rec bp with
        | error e => rfl
        | ok r => exact htail _ (by simp)

theorem ipLoop_ok {nets : Defs} {rec : Str → Except Err (List Str)} : ∀ {bps acc l},
    (∀ bp ∈ bps, alphaHead bp = true) → ipParentsLoop nets rec bps acc = .ok l →
    Steps (fun bp => nets.any (fun d => hasValue bp d.2) = true) rec bps acc l
  | [], acc, l, _, h => by cases h; exact .nil
  | bp :: bps, acc, l, ha, h => by
    have hal := ha bp (List.mem_cons_self ..)
    have ha' : ∀ b ∈ bps, alphaHead b = true := fun b hb => ha b (List.mem_cons_of_mem _ hb)
    obtain ⟨c1, c2, c3⟩ := ipInner_cases hal (rec := rec) nets acc false
    rw [ipParentsLoop] at h
    cases hany : nets.any (fun d => hasValue bp d.2) with
    | false =>
      rw [c1 hany] at h
      simp only [bind, Except.bind, Bool.not_false, hal, Bool.true_and] at h
      rcases Classical.em (bp ∈ acc) with hb | hb
      · rw [if_neg (by simpa using hb)] at h
        exact .cons (.old hb) (ipLoop_ok ha' h)
      · rw [if_pos (by simpa using hb)] at h
        exact .cons (.top hb (by simp [hany])) (ipLoop_ok ha' h)
    | true =>
      rcases Classical.em (bp ∈ acc) with hb | hb
      · rw [c2 hany hb] at h
        exact .cons (.old hb) (ipLoop_ok ha' h)
      · rw [c3 hany hb] at h
        cases hr : rec bp with
        | error e => rw [hr] at h; cases h
        | ok r =>
          rw [hr] at h
          exact .cons (.up hb hany hr) (ipLoop_ok ha' h)

theorem ipLoop_error {nets : Defs} {rec : Str → Except Err (List Str)} {e} : ∀ {bps acc},
    ipParentsLoop nets rec bps acc = .error e → ∃ bp ∈ bps, rec bp = .error e
  | [], acc, h => by cases h
  | bp :: bps, acc, h => by
    have tail : ∀ {acc}, ipParentsLoop nets rec bps acc = .error e → ∃ b ∈ bp :: bps, rec b = .error e := by
      intro acc hh
      obtain ⟨b, hb, he⟩ := ipLoop_error hh
      exact ⟨b, List.mem_cons_of_mem _ hb, he⟩
    rw [ipParentsLoop] at h
    cases hal : alphaHead bp with
    | false =>
      have hin : ∀ ds acc done, ipParentsInner rec bp ds acc done = .ok (acc, done) := by
        intro ds
        induction ds with
        | nil => intros; rfl
        | cons d ds ih => intro acc done; rw [ipParentsInner, hal]; simp [ih]
      rw [hin] at h
      exact tail h
    | true =>
      obtain ⟨c1, c2, c3⟩ := ipInner_cases hal (rec := rec) nets acc false
      cases hany : nets.any (fun d => hasValue bp d.2) with
      | false => rw [c1 hany] at h; exact tail h
      | true =>
        rcases Classical.em (bp ∈ acc) with hb | hb
        · rw [c2 hany hb] at h; exact tail h
        · rw [c3 hany hb] at h
          cases hr : rec bp with
          | error e' => rw [hr] at h; cases h; exact ⟨bp, List.mem_cons_self .., hr⟩
          | ok r => rw [hr] at h; exact tail h

theorem ipLoop_mono {nets : Defs} {rec rec' : Str → Except Err (List Str)} : ∀ {bps acc},
    (∀ bp ∈ bps, rec bp ≠ .error .diverges → rec' bp = rec bp) →
    ipParentsLoop nets rec bps acc ≠ .error .diverges →
    ipParentsLoop nets rec' bps acc = ipParentsLoop nets rec bps acc
  | [], acc, _, _ => rfl
  | bp :: bps, acc, hr, h => by
    have hr' : ∀ b ∈ bps, rec b ≠ .error .diverges → rec' b = rec b :=
      fun b hb => hr b (List.mem_cons_of_mem _ hb)
    rw [ipParentsLoop] at h ⊢
    rw [ipParentsLoop]
    have hin : ipParentsInner rec bp nets acc false ≠ .error .diverges →
        ipParentsInner rec' bp nets acc false = ipParentsInner rec bp nets acc false := by
      cases hal : alphaHead bp with
      | false =>
        have hin : ∀ rec ds acc done, ipParentsInner rec bp ds acc done = .ok (acc, done) := by
          intro rec ds
          induction ds with
          | nil => intros; rfl
          | cons d ds ih => intro acc done; rw [ipParentsInner, hal]; simp [ih]
        intro _; rw [hin, hin]
      | true =>
        obtain ⟨c1, c2, c3⟩ := ipInner_cases hal (rec := rec) nets acc false
        obtain ⟨d1, d2, d3⟩ := ipInner_cases hal (rec := rec') nets acc false
        cases hany : nets.any (fun d => hasValue bp d.2) with
        | false => intro _; rw [c1 hany, d1 hany]
        | true =>
          rcases Classical.em (bp ∈ acc) with hb | hb
          · intro _; rw [c2 hany hb, d2 hany hb]
          · intro hne
            rw [c3 hany hb] at hne ⊢
            rw [d3 hany hb, hr bp (List.mem_cons_self ..)]
            intro he; rw [he] at hne; exact hne rfl
    cases hi : ipParentsInner rec bp nets acc false with
    | error e =>
      rw [hi] at h hin
      rw [hin (fun he => h (by cases he; rfl))]; rfl
    | ok a =>
      rw [hi] at h hin
      rw [hin (by simp)]
      exact ipLoop_mono hr' h

/-- One unfolding of `GetIpParents` on a token. -/
def tokF (nets : Defs) (rec : Str → Except Err (List Str)) (query : Str) : Except Err (List Str) := do
  let l ← ipParentsLoop nets rec (tokBase nets query) []
  .ok (sortedSet l)

theorem tokParentsF_iter (nets : Defs) (n : Nat) : tokParentsF nets n = iter (tokF nets) n := by
  induction n with
  | zero => rfl
  | succ n ih =>
    funext q
    show _ = tokF nets (iter (tokF nets) n) q
    rw [← ih]; rfl

theorem tokBase_key {nets : Defs} {q x : Str} (h : x ∈ tokBase nets q) : x ∈ nets.map Prod.fst := by
  unfold tokBase at h
  obtain ⟨d, hd, hx⟩ := List.mem_flatMap.1 h
  obtain ⟨i, _, rfl⟩ := List.mem_map.1 hx
  exact List.mem_map.2 ⟨d, hd, rfl⟩

theorem tokF_mono (nets : Defs) : Mono (fun k => k ∈ nets.map Prod.fst) (tokF nets) := by
  intro r r' k h hr
  unfold tokF at *
  rw [ipLoop_mono (fun bp hbp => hr bp (tokBase_key hbp))]
  intro he
  rw [he] at h
  exact h rfl

/-- The recursion depth allowed by the model is enough whenever any depth is. -/
theorem tokParents_fuel {nets : Defs} {m q} (h : tokParentsF nets m q ≠ .error .diverges) :
    tokParentsF nets (nets.length + 2) q = tokParentsF nets m q := by
  rw [tokParentsF_iter] at *
  rw [tokParentsF_iter]
  have := iter_enough' (tokF_mono nets) id (nets.map Prod.fst) (fun r k hk _ => hk)
    (fun r k k' hk => by rw [show k = k' from hk]) (m := m) (k := q) h
  rwa [List.length_map] at this

theorem tokParents_fuel_key {nets : Defs} {m q} (hq : q ∈ nets.map Prod.fst)
    (h : tokParentsF nets m q ≠ .error .diverges) :
    tokParentsF nets (nets.length + 1) q = tokParentsF nets m q := by
  rw [tokParentsF_iter] at *
  rw [tokParentsF_iter]
  have := iter_enough (tokF_mono nets) id (nets.map Prod.fst) (fun r k hk _ => hk)
    (fun r k k' hk => by rw [show k = k' from hk]) (m := m) (k := q) hq h
  rwa [List.length_map] at this

theorem mem_tokBase {nets : Defs} (hw : ItemsOk nets) (hn : (nets.map Prod.fst).Nodup) {q x : Str}
    (hq : alphaHead q = true) :
    x ∈ tokBase nets q ↔ HasValue nets x q := by
  unfold tokBase
  rw [List.mem_flatMap]
  constructor
  · rintro ⟨d, hd, hx⟩
    obtain ⟨i, hi, rfl⟩ := List.mem_map.1 hx
    rw [List.mem_filter] at hi
    obtain ⟨v, hv⟩ := hw d hd i hi.1
    rw [itemTok_item hv] at hi
    have : v = q := by have := hi.2; simp at this; exact this.2
    subst this
    exact ⟨d.2, i, lookup_of_mem hn hd, hi.1, hv⟩
  · rintro ⟨items, i, hl, hi, hv⟩
    refine ⟨_, lookup_mem hl, List.mem_map.2 ⟨i, List.mem_filter.2 ⟨hi, ?_⟩, rfl⟩⟩
    rw [itemTok_item hv]; simp [hq]

theorem any_hasValue {nets : Defs} (hw : ItemsOk nets) (hn : (nets.map Prod.fst).Nodup) {b : Str} :
    nets.any (fun d => hasValue b d.2) = true ↔ ∃ s, HasValue nets s b := by
  rw [List.any_eq_true]
  constructor
  · rintro ⟨d, hd, h⟩
    obtain ⟨i, hi, hv⟩ := (hasValue_iff hw hd).1 h
    exact ⟨d.1, d.2, i, lookup_of_mem hn hd, hi, hv⟩
  · rintro ⟨s, items, i, hl, hi, hv⟩
    exact ⟨_, lookup_mem hl, (hasValue_iff hw (lookup_mem hl)).2 ⟨i, hi, hv⟩⟩

theorem tokParentsF_correct {nets : Defs} {ip : IpParser} (hw : ItemsOk nets) (hn : (nets.map Prod.fst).Nodup)
    (ht' : TokenNames nets ip) : ∀ n q, alphaHead q = true → ip q = none →
    ∀ l, tokParentsF nets n q = .ok l → ∀ x, x ∈ l ↔ Above nets (NetLeaf ip) q x := by
  have ht : ∀ t ∈ nets.map Prod.fst, alphaHead t = true ∧ ip t = none :=
    fun t h => ⟨alphaHead_iff.2 (ht' t h).1, (ht' t h).2⟩
  intro n
  induction n with
  | zero => intro q _ _ l h; cases h
  | succ n ih =>
    intro q hq1 hq2 l h
    rw [tokParentsF] at h
    cases hl : ipParentsLoop nets (tokParentsF nets n) (tokBase nets q) [] with
    | error e => rw [hl] at h; cases h
    | ok l0 =>
      rw [hl] at h
      cases h
      have hkey : ∀ b ∈ tokBase nets q, alphaHead b = true ∧ ip b = none := fun b hb => ht b (tokBase_key hb)
      obtain ⟨_, hx⟩ := steps_spec (A := Above nets (NetLeaf ip)) (fun _ _ _ => above_trans)
        (ipLoop_ok (fun b hb => (hkey b hb).1) hl)
        (fun b hb r hr => ih b (hkey b hb).1 (hkey b hb).2 r hr)
        (fun b hb hpar x hx => hpar (by
          obtain ⟨s, h1, _, _⟩ := hx
          exact (any_hasValue hw hn).2 ⟨s, h1⟩))
        (fun b hb => by cases hb)
      intro x
      rw [mem_sortedSet, hx]
      have hnl : ¬ NetLeaf ip q := by unfold NetLeaf; rw [hq2]; simp
      constructor
      · rintro (h | ⟨b, hb, rfl | h⟩)
        · cases h
        · exact ⟨x, (mem_tokBase hw hn hq1).1 hb, hnl, .refl⟩
        · exact above_trans ⟨b, (mem_tokBase hw hn hq1).1 hb, hnl, .refl⟩ h
      · rintro ⟨s, h1, h2, h3⟩
        refine .inr ⟨s, (mem_tokBase hw hn hq1).2 h1, ?_⟩
        exact reach_above h3

theorem tokParents_terminates {nets : Defs} {ip : IpParser} (hw : ItemsOk nets) (hn : (nets.map Prod.fst).Nodup)
    (ht' : TokenNames nets ip) (hloop : NoLoop nets (NetLeaf ip)) {q : Str} (hq1 : alphaHead q = true)
    (hq2 : ip q = none) : ∃ n l, tokParentsF nets n q = .ok l := by
  have ht : ∀ t ∈ nets.map Prod.fst, alphaHead t = true ∧ ip t = none :=
    fun t h => ⟨alphaHead_iff.2 (ht' t h).1, (ht' t h).2⟩
  have hne : ∀ q, alphaHead q = true → ip q = none → Acc (fun x y => HasValue nets x y ∧ ¬ NetLeaf ip y) q →
      ∃ n l, tokParentsF nets n q = .ok l := by
    intro q hq1 hq2 hacc
    induction hacc with
    | intro q _ ih =>
      have hnl : ¬ NetLeaf ip q := by unfold NetLeaf; rw [hq2]; simp
      have hb : ∃ n, ∀ b ∈ tokBase nets q, tokParentsF nets n b ≠ .error .diverges := by
        refine common_bound (f := tokParentsF nets) (fun n m q h hd => ?_) _ ?_
        · rw [tokParentsF_iter] at *
          rw [tokParentsF_iter]
          exact iter_le (tokF_mono nets) h hd
        · intro b hb
          obtain ⟨n, l, h⟩ := ih b ⟨(mem_tokBase hw hn hq1).1 hb, hnl⟩ (ht b (tokBase_key hb)).1
            (ht b (tokBase_key hb)).2
          exact ⟨n, by rw [h]; simp⟩
      obtain ⟨n, hn'⟩ := hb
      have herr : ∀ n q e, tokParentsF nets n q = .error e → e = .diverges := by
        intro n
        induction n with
        | zero => intro q e h; cases h; rfl
        | succ n ih =>
          intro q e h
          rw [tokParentsF] at h
          cases hl : ipParentsLoop nets (tokParentsF nets n) (tokBase nets q) [] with
          | ok l => rw [hl] at h; cases h
          | error e' =>
            rw [hl] at h; cases h
            obtain ⟨b, _, he⟩ := ipLoop_error hl
            exact ih b _ he
      cases hres : tokParentsF nets (n + 1) q with
      | ok l => exact ⟨n + 1, l, hres⟩
      | error e =>
        exfalso
        rw [tokParentsF] at hres
        cases hl : ipParentsLoop nets (tokParentsF nets n) (tokBase nets q) [] with
        | ok l => rw [hl] at hres; cases hres
        | error e' =>
          obtain ⟨b, hb, he⟩ := ipLoop_error hl
          have := herr _ _ _ he
          subst this
          exact hn' b hb he
  exact hne q hq1 hq2 (above_acc hloop q)

theorem mem_ipBase {nets : Defs} {ip : IpParser} (hw : ItemsOk nets) (hn : (nets.map Prod.fst).Nodup)
    (hd : DigitAddrs nets ip) {q : Net} {x : Str} :
    x ∈ ipBase nets ip q ↔ ∃ v a, HasValue nets x v ∧ ip v = some a ∧ a.supernetOf q = true := by
  unfold ipBase
  rw [List.mem_flatMap]
  constructor
  · rintro ⟨d, hd', hx⟩
    obtain ⟨i, hi, rfl⟩ := List.mem_map.1 hx
    rw [List.mem_filter] at hi
    obtain ⟨v, hv⟩ := hw d hd' i hi.1
    rw [itemTok_item hv, Bool.and_eq_true] at hi
    have h2 := hi.2.2
    split at h2
    next a ha => exact ⟨v, a, ⟨d.2, i, lookup_of_mem hn hd', hi.1, hv⟩, ha, h2⟩
    next => cases h2
  · rintro ⟨v, a, ⟨items, i, hl, hi, hv⟩, ha, hs⟩
    refine ⟨_, lookup_mem hl, List.mem_map.2 ⟨i, List.mem_filter.2 ⟨hi, ?_⟩, rfl⟩⟩
    rw [itemTok_item hv, Bool.and_eq_true, digitHead_iff.2 (hd _ (lookup_mem hl) i hi v hv (by rw [ha]; rfl))]
    refine ⟨rfl, ?_⟩
    rw [ha]
    exact hs

theorem ipBase_key {nets : Defs} {ip : IpParser} {q : Net} {x : Str} (h : x ∈ ipBase nets ip q) :
    x ∈ nets.map Prod.fst := by
  unfold ipBase at h
  obtain ⟨d, hd, hx⟩ := List.mem_flatMap.1 h
  obtain ⟨i, _, rfl⟩ := List.mem_map.1 hx
  exact List.mem_map.2 ⟨d, hd, rfl⟩

/-- `GetIpParents` on an address. -/
theorem getIpParents_correct {nets : Defs} {ip : IpParser} (hw : ItemsOk nets) (hn : (nets.map Prod.fst).Nodup)
    (ht' : TokenNames nets ip) (hd : DigitAddrs nets ip) (hloop : NoLoop nets (NetLeaf ip)) (q : Net) :
    ∃ l, getIpParents nets ip q = .ok l ∧ l.Pairwise (fun a b => strLt a b = true) ∧
      ∀ x, x ∈ l ↔ ∃ a s, NetOf nets ip x a s ∧ a.supernetOf q = true := by
  have ht : ∀ t ∈ nets.map Prod.fst, alphaHead t = true ∧ ip t = none :=
    fun t h => ⟨alphaHead_iff.2 (ht' t h).1, (ht' t h).2⟩
  unfold getIpParents
  have hrec : ∀ b ∈ nets.map Prod.fst, ∃ r, tokParentsF nets (nets.length + 1) b = .ok r := by
    intro b hb
    obtain ⟨n, l, h⟩ := tokParents_terminates hw hn ht' hloop (ht b hb).1 (ht b hb).2
    exact ⟨l, by rw [tokParents_fuel_key (m := n) hb (by rw [h]; simp), h]⟩
  cases hl : ipParentsLoop nets (tokParentsF nets (nets.length + 1)) (ipBase nets ip q) [] with
  | error e =>
    obtain ⟨b, hb, he⟩ := ipLoop_error hl
    obtain ⟨r, hr⟩ := hrec b (ipBase_key hb)
    rw [hr] at he; cases he
  | ok l0 =>
    refine ⟨_, rfl, sortedSet_sorted _, ?_⟩
    have hkey : ∀ b ∈ ipBase nets ip q, alphaHead b = true ∧ ip b = none := fun b hb => ht b (ipBase_key hb)
    obtain ⟨_, hx⟩ := steps_spec (A := Above nets (NetLeaf ip)) (fun _ _ _ => above_trans)
      (ipLoop_ok (fun b hb => (hkey b hb).1) hl)
      (fun b hb r hr => tokParentsF_correct hw hn ht' _ b (hkey b hb).1 (hkey b hb).2 r hr)
      (fun b hb hpar x hx => hpar (by
        obtain ⟨s, h1, _, _⟩ := hx
        exact (any_hasValue hw hn).2 ⟨s, h1⟩))
      (fun b hb => by cases hb)
    intro x
    rw [mem_sortedSet, hx]
    constructor
    · rintro (h | ⟨b, hb, h⟩)
      · cases h
      · obtain ⟨v, a, h1, h2, h3⟩ := (mem_ipBase hw hn hd).1 hb
        refine ⟨a, b, ⟨?_, v, h1, h2⟩, h3⟩
        rcases h with rfl | ⟨s, g1, g2, g3⟩
        · exact .refl
        · exact .step g3 g1 g2
    · rintro ⟨a, s, ⟨h1, v, h2, h3⟩, h4⟩
      exact .inr ⟨s, (mem_ipBase hw hn hd).2 ⟨v, a, h2, h3, h4⟩, reach_above h1⟩

/-! ### GetNetParents and GetServiceParents -/

theorem parInner_cases {rec : Str → Except Err (List Str)} {bp : Str} :
    ∀ (ds : Defs) (acc : List Str),
    (ds.any (fun d => d.2.contains bp) = false → parentsInner rec bp ds acc = .ok acc) ∧
    (bp ∈ acc → parentsInner rec bp ds acc = .ok acc) ∧
    (ds.any (fun d => d.2.contains bp) = true → bp ∉ acc → parentsInner rec bp ds acc =
      (rec bp >>= fun r => .ok (acc ++ bp :: r)))
  | [], acc => by simp [parentsInner]
  | d :: ds, acc => by
    have ih := parInner_cases (rec := rec) (bp := bp) ds
    rw [List.any_cons]
    unfold parentsInner
    cases hv : d.2.contains bp with
    | false =>
      simp only [Bool.false_or, Bool.false_and, Bool.false_eq_true, if_false]
      exact ih acc
    | true =>
      simp only [Bool.true_or, Bool.true_and, true_implies]
      refine ⟨by simp, ?_, ?_⟩
      · intro hb
        rw [if_neg (by simpa using hb)]
        exact (ih acc).2.1 hb
      · intro hb
        rw [if_pos (by simpa using hb)]
        cases rec bp with
        | error e => rfl
        | ok r => exact (ih _).2.1 (by simp)

theorem parLoop_ok {g : Defs} {rec : Str → Except Err (List Str)} : ∀ {bps acc l},
    parentsLoop g rec bps acc = .ok l →
    Steps (fun bp => g.any (fun d => d.2.contains bp) = true) rec bps acc l
  | [], acc, l, h => by cases h; exact .nil
  | bp :: bps, acc, l, h => by
    obtain ⟨c1, c2, c3⟩ := parInner_cases (rec := rec) (bp := bp) g acc
    rw [parentsLoop] at h
    rcases Classical.em (bp ∈ acc) with hb | hb
    · rw [c2 hb] at h
      simp only [bind, Except.bind] at h
      rw [if_pos (by simpa using hb)] at h
      exact .cons (.old hb) (parLoop_ok h)
    · cases hany : g.any (fun d => d.2.contains bp) with
      | false =>
        rw [c1 hany] at h
        simp only [bind, Except.bind] at h
        rw [if_neg (by simpa using hb)] at h
        exact .cons (.top hb (fun hh => by rw [hany] at hh; cases hh)) (parLoop_ok h)
      | true =>
        rw [c3 hany hb] at h
        cases hr : rec bp with
        | error e => rw [hr] at h; cases h
        | ok r =>
          rw [hr] at h
          simp only [bind, Except.bind] at h
          rw [if_pos (by simp)] at h
          exact .cons (.up hb hany hr) (parLoop_ok h)

theorem parLoop_error {g : Defs} {rec : Str → Except Err (List Str)} {e} : ∀ {bps acc},
    parentsLoop g rec bps acc = .error e → ∃ bp ∈ bps, rec bp = .error e
  | [], acc, h => by cases h
  | bp :: bps, acc, h => by
    have tail : ∀ {acc}, parentsLoop g rec bps acc = .error e → ∃ b ∈ bp :: bps, rec b = .error e := by
      intro acc hh
      obtain ⟨b, hb, he⟩ := parLoop_error hh
      exact ⟨b, List.mem_cons_of_mem _ hb, he⟩
    obtain ⟨c1, c2, c3⟩ := parInner_cases (rec := rec) (bp := bp) g acc
    rw [parentsLoop] at h
    rcases Classical.em (bp ∈ acc) with hb | hb
    · rw [c2 hb] at h; exact tail h
    · cases hany : g.any (fun d => d.2.contains bp) with
      | false => rw [c1 hany] at h; exact tail h
      | true =>
        rw [c3 hany hb] at h
        cases hr : rec bp with
        | error e' => rw [hr] at h; cases h; exact ⟨bp, List.mem_cons_self .., hr⟩
        | ok r => rw [hr] at h; exact tail h

theorem parLoop_mono {g : Defs} {rec rec' : Str → Except Err (List Str)} : ∀ {bps acc},
    (∀ bp ∈ bps, rec bp ≠ .error .diverges → rec' bp = rec bp) →
    parentsLoop g rec bps acc ≠ .error .diverges →
    parentsLoop g rec' bps acc = parentsLoop g rec bps acc
  | [], acc, _, _ => rfl
  | bp :: bps, acc, hr, h => by
    have hr' : ∀ b ∈ bps, rec b ≠ .error .diverges → rec' b = rec b :=
      fun b hb => hr b (List.mem_cons_of_mem _ hb)
    rw [parentsLoop] at h ⊢
    rw [parentsLoop]
    have hin : parentsInner rec bp g acc ≠ .error .diverges →
        parentsInner rec' bp g acc = parentsInner rec bp g acc := by
      obtain ⟨c1, c2, c3⟩ := parInner_cases (rec := rec) (bp := bp) g acc
      obtain ⟨d1, d2, d3⟩ := parInner_cases (rec := rec') (bp := bp) g acc
      rcases Classical.em (bp ∈ acc) with hb | hb
      · intro _; rw [c2 hb, d2 hb]
      · cases hany : g.any (fun d => d.2.contains bp) with
        | false => intro _; rw [c1 hany, d1 hany]
        | true =>
          intro hne
          rw [c3 hany hb] at hne ⊢
          rw [d3 hany hb, hr bp (List.mem_cons_self ..)]
          intro he; rw [he] at hne; exact hne rfl
    cases hi : parentsInner rec bp g acc with
    | error e =>
      rw [hi] at h hin
      rw [hin (fun he => h (by cases he; rfl))]; rfl
    | ok a =>
      rw [hi] at h hin
      rw [hin (by simp)]
      exact parLoop_mono hr' h

/-- Base parents of `_GetParents`. -/
def parBase (g : Defs) (q : Str) : List Str := (g.filter fun d => hasValue q d.2).map Prod.fst

/-- One unfolding of `_GetParents`. -/
def parF (g : Defs) (rec : Str → Except Err (List Str)) (query : Str) : Except Err (List Str) :=
  parentsLoop g rec (parBase g query) []

theorem getParentsF_iter (g : Defs) (n : Nat) : getParentsF g n = iter (parF g) n := by
  induction n with
  | zero => rfl
  | succ n ih =>
    funext q
    show _ = parF g (iter (parF g) n) q
    rw [← ih]; rfl

theorem parBase_key {g : Defs} {q x : Str} (h : x ∈ parBase g q) : x ∈ g.map Prod.fst := by
  obtain ⟨d, hd, rfl⟩ := List.mem_map.1 h
  exact List.mem_map.2 ⟨d, (List.mem_filter.1 hd).1, rfl⟩

theorem parF_mono (g : Defs) : Mono (fun k => k ∈ g.map Prod.fst) (parF g) := by
  intro r r' k h hr
  exact parLoop_mono (fun bp hbp => hr bp (parBase_key hbp)) h

theorem getParents_fuel {g : Defs} {m q} (h : getParentsF g m q ≠ .error .diverges) :
    getParents g q = getParentsF g m q := by
  unfold getParents
  rw [getParentsF_iter] at *
  rw [getParentsF_iter]
  have := iter_enough' (parF_mono g) id (g.map Prod.fst) (fun r k hk _ => hk)
    (fun r k k' hk => by rw [show k = k' from hk]) (m := m) (k := q) h
  rwa [List.length_map] at this

theorem mem_parBase {g : Defs} (hw : ItemsOk g) (hn : (g.map Prod.fst).Nodup) {q x : Str} :
    x ∈ parBase g q ↔ HasValue g x q := by
  unfold parBase
  rw [List.mem_map]
  constructor
  · rintro ⟨d, hd, rfl⟩
    rw [List.mem_filter] at hd
    obtain ⟨i, hi, hv⟩ := (hasValue_iff hw hd.1).1 hd.2
    exact ⟨d.2, i, lookup_of_mem hn hd.1, hi, hv⟩
  · rintro ⟨items, i, hl, hi, hv⟩
    exact ⟨_, List.mem_filter.2 ⟨lookup_mem hl, (hasValue_iff hw (lookup_mem hl)).2 ⟨i, hi, hv⟩⟩, rfl⟩

theorem getParentsF_correct {g : Defs} (hw : ItemsOk g) (hn : (g.map Prod.fst).Nodup) (hb : BareRefs g) :
    ∀ n q l, getParentsF g n q = .ok l → ∀ x, x ∈ l ↔ Above g AnyRef q x := by
  intro n
  induction n with
  | zero => intro q l h; cases h
  | succ n ih =>
    intro q l h
    obtain ⟨_, hx⟩ := steps_spec (A := Above g AnyRef) (fun _ _ _ => above_trans) (parLoop_ok h)
      (fun b _ r hr => ih b r hr)
      (fun b hbm hpar x hx => hpar (by
        obtain ⟨s, ⟨items, i, hl, hi, hv⟩, _, _⟩ := hx
        have : i = b := hb _ (lookup_mem hl) i hi b hv (parBase_key hbm)
        subst this
        rw [List.any_eq_true]
        exact ⟨_, lookup_mem hl, by simpa using hi⟩))
      (fun b hb => by cases hb)
    intro x
    rw [hx]
    constructor
    · rintro (h | ⟨b, hbm, rfl | h⟩)
      · cases h
      · exact ⟨x, (mem_parBase hw hn).1 hbm, id, .refl⟩
      · exact above_trans ⟨b, (mem_parBase hw hn).1 hbm, id, .refl⟩ h
    · rintro ⟨s, h1, _, h3⟩
      exact .inr ⟨s, (mem_parBase hw hn).2 h1, reach_above h3⟩

theorem getParents_terminates {g : Defs} (hw : ItemsOk g) (hn : (g.map Prod.fst).Nodup)
    (hloop : NoLoop g AnyRef) (q : Str) : ∃ n l, getParentsF g n q = .ok l := by
  have herr : ∀ n q e, getParentsF g n q = .error e → e = .diverges := by
    intro n
    induction n with
    | zero => intro q e h; cases h; rfl
    | succ n ih =>
      intro q e h
      obtain ⟨b, _, he⟩ := parLoop_error h
      exact ih b _ he
  induction above_acc hloop q with
  | intro q _ ih =>
    have hb : ∃ n, ∀ b ∈ parBase g q, getParentsF g n b ≠ .error .diverges := by
      refine common_bound (f := getParentsF g) (fun n m q h hd => ?_) _ ?_
      · rw [getParentsF_iter] at *
        rw [getParentsF_iter]
        exact iter_le (parF_mono g) h hd
      · intro b hb
        obtain ⟨n, l, h⟩ := ih b ⟨(mem_parBase hw hn).1 hb, id⟩
        exact ⟨n, by rw [h]; simp⟩
    obtain ⟨n, hn'⟩ := hb
    cases hres : getParentsF g (n + 1) q with
    | ok l => exact ⟨n + 1, l, hres⟩
    | error e =>
      exfalso
      obtain ⟨b, hb, he⟩ := parLoop_error hres
      have := herr _ _ _ he
      subst this
      exact hn' b hb he

end Naming
end Verif
