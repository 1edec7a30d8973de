import Verif.Lemmas.Ports
import Verif.Lemmas.NacMore

namespace Verif
open Spec Policy Nacaddr

/-! ### the sweep without any ordering assumption: never removes too much -/

theorem sweep_over : ∀ (fuel : Nat) (sup exs ret : List Net),
    sweepFuel sup exs ≤ fuel →
    (∀ n ∈ sup, WF n) → (∀ n ∈ exs, WF n) → (∀ n ∈ ret, WF n) →
    ∃ r, sweep fuel sup exs ret = .ok r ∧ (∀ n ∈ r, WF n) ∧
      (∀ v x, Den r v x → Den ret v x ∨ Den sup v x) ∧
      (∀ v x, (Den ret v x ∨ (Den sup v x ∧ ¬ Den exs v x)) → Den r v x) := by
  intro fuel
  induction fuel with
  | zero =>
    intro sup exs ret hf wsup wexs wret
    cases sup with
    | nil =>
      refine ⟨ret.reverse, by simp [sweep], by simpa using wret, ?_, ?_⟩ <;>
      · intro v x; rw [den_reverse]; simp
    | cons s sup =>
      exfalso
      have : 0 < size s := Nat.two_pow_pos _
      simp only [sweepFuel, List.map_cons, List.sum_cons] at hf
      omega
  | succ fuel ih =>
    intro sup exs ret hf wsup wexs wret
    cases sup with
    | nil =>
      refine ⟨ret.reverse, by simp [sweep], by simpa using wret, ?_, ?_⟩ <;>
      · intro v x; rw [den_reverse]; simp
    | cons s sup =>
      cases exs with
      | nil =>
        refine ⟨ret.reverse ++ (s :: sup).reverse, by simp [sweep], ?_, ?_, ?_⟩
        · intro n hn
          rcases List.mem_append.1 hn with h | h
          · exact wret n (List.mem_reverse.1 h)
          · exact wsup n (List.mem_reverse.1 h)
        all_goals intro v x; rw [den_append, den_reverse, den_reverse]; simp
      | cons e exs =>
        have ws := wsup s (List.mem_cons_self ..)
        have we := wexs e (List.mem_cons_self ..)
        have wsup' : ∀ n ∈ sup, WF n := fun n hn => wsup n (List.mem_cons_of_mem _ hn)
        have wexs' : ∀ n ∈ exs, WF n := fun n hn => wexs n (List.mem_cons_of_mem _ hn)
        simp only [sweepFuel, List.map_cons, List.sum_cons, List.length_cons] at hf
        unfold sweep
        split
        next hov =>
          obtain ⟨v0, x0, m1, m2⟩ := (overlaps_iff ws we).1 hov
          obtain ⟨pieces, hp, pw, pd, _, psz⟩ := removeOne_spec ws we m1 m2
          rw [hp]
          obtain ⟨r, hr, rw_, r1, r2⟩ := ih (pieces ++ sup) (e :: exs) ret
            (by simp only [sweepFuel, List.map_append, List.sum_append, List.length_cons]; omega)
            (by
              intro n hn
              rcases List.mem_append.1 hn with h | h
              · exact pw n h
              · exact wsup' n h)
            wexs wret
          refine ⟨r, hr, rw_, ?_, ?_⟩
          · intro v x h
            rw [den_cons]
            rcases r1 v x h with h | h
            · exact .inl h
            · rw [den_append, pd] at h
              rcases h with h | h
              · exact .inr (.inl h.1)
              · exact .inr (.inr h)
          · intro v x h
            apply r2
            rw [den_append, pd]
            rw [den_cons s] at h
            rcases h with h | ⟨h1 | h1, h2⟩
            · exact .inl h
            · exact .inr ⟨.inl ⟨h1, fun h => h2 ((den_cons ..).2 (.inl h))⟩, h2⟩
            · exact .inr ⟨.inr h1, h2⟩
        next hov =>
          split
          next hlt =>
            obtain ⟨r, hr, rw_, r1, r2⟩ := ih sup (e :: exs) (s :: ret)
              (by
                have : 0 < size s := Nat.two_pow_pos _
                simp only [sweepFuel, List.length_cons]; omega)
              wsup' wexs
              (by
                intro n hn
                rcases List.mem_cons.1 hn with rfl | hn
                · exact ws
                · exact wret n hn)
            refine ⟨r, hr, rw_, ?_, ?_⟩
            · intro v x h
              rcases r1 v x h with h | h
              · rw [den_cons] at h ⊢
                rcases h with h | h
                · exact .inr (.inl h)
                · exact .inl h
              · exact .inr ((den_cons ..).2 (.inr h))
            · intro v x h
              apply r2
              rw [den_cons s] at h ⊢
              rcases h with h | ⟨h1 | h1, h2⟩
              · exact .inl (.inr h)
              · exact .inl (.inl h1)
              · exact .inr ⟨h1, h2⟩
          next hlt =>
            have hdis : ¬ ∃ v x, Mem s v x ∧ Mem e v x := fun h => hov ((overlaps_iff ws we).2 h)
            obtain ⟨r, hr, rw_, r1, r2⟩ := ih (s :: sup) exs ret
              (by simp only [sweepFuel, List.map_cons, List.sum_cons]; omega)
              wsup wexs' wret
            refine ⟨r, hr, rw_, r1, ?_⟩
            intro v x h
            apply r2
            rcases h with h | ⟨h1, h2⟩
            · exact .inl h
            · exact .inr ⟨h1, fun h => h2 ((den_cons ..).2 (.inr h))⟩

/-- `AddressListExclude(..., collapse_addrs=False)`: what can be said for every input. -/
theorem addressListExclude_over (sup exs : List Net) (hs : ∀ n ∈ sup, WF n) (he : ∀ n ∈ exs, WF n)
    {r : List Net} (h : addressListExclude sup exs false = .ok r) :
    (∀ n ∈ r, WF n) ∧ (∀ v x, Den r v x → Den sup v x) ∧
      (∀ v x, Den sup v x ∧ ¬ Den exs v x → Den r v x) := by
  have ws : ∀ n ∈ isort Net.keyLe sup.reverse, WF n := fun n hn => hs n (by simpa using mem_isort.1 hn)
  have we : ∀ n ∈ isort Net.keyLe exs.reverse, WF n := fun n hn => he n (by simpa using mem_isort.1 hn)
  obtain ⟨r', hr, wr, r1, r2⟩ := sweep_over (sweepFuel (isort Net.keyLe sup.reverse)
    (isort Net.keyLe exs.reverse)) _ _ [] (Nat.le_refl _) ws we (by simp)
  obtain ⟨k1, k2⟩ := dedupNets_spec r' [] wr (by simp)
  have dsup : SameDen (isort Net.keyLe sup.reverse) sup :=
    den_perm ((isort_perm _ _).trans (List.reverse_perm _))
  have dexs : SameDen (isort Net.keyLe exs.reverse) exs :=
    den_perm ((isort_perm _ _).trans (List.reverse_perm _))
  unfold addressListExclude at h
  rw [if_neg (by simp)] at h
  split at h
  · cases h
  · simp only [hr, bind, Except.bind] at h
    split at h
    · cases h
    · cases h
      have dd : SameDen (sortAddrList (dedupNets [] r')) r' := by
        intro v x
        rw [← List.append_nil r', ← k2 v x, List.append_nil]
        exact den_perm (isort_perm _ _) v x
      refine ⟨?_, ?_, ?_⟩
      · intro n hn
        rcases k1 n (mem_isort.1 hn) with h | h
        · exact wr n h
        · cases h
      · intro v x hx
        rcases r1 v x ((dd v x).1 hx) with h | h
        · simp at h
        · exact (dsup v x).1 h
      · intro v x hx
        refine (dd v x).2 (r2 v x (.inr ?_))
        rw [dsup v x, dexs v x]; exact hx

theorem addressListExclude_nc_total (sup exs : List Net) (hs : ∀ n ∈ sup, WF n) (he : ∀ n ∈ exs, WF n)
    (h1 : ∀ a ∈ sup, ∀ b ∈ sup, a.ver = b.ver) (h2 : ∀ a ∈ exs, ∀ b ∈ exs, a.ver = b.ver) :
    ∃ r, addressListExclude sup exs false = .ok r := by
  have ws : ∀ n ∈ isort Net.keyLe sup.reverse, WF n := fun n hn => hs n (by simpa using mem_isort.1 hn)
  have we : ∀ n ∈ isort Net.keyLe exs.reverse, WF n := fun n hn => he n (by simpa using mem_isort.1 hn)
  obtain ⟨r', hr, wr, r1, r2⟩ := sweep_over (sweepFuel (isort Net.keyLe sup.reverse)
    (isort Net.keyLe exs.reverse)) _ _ [] (Nat.le_refl _) ws we (by simp)
  obtain ⟨k1, k2⟩ := dedupNets_spec r' [] wr (by simp)
  have dsup : SameDen (isort Net.keyLe sup.reverse) sup :=
    den_perm ((isort_perm _ _).trans (List.reverse_perm _))
  have hver : ∀ n ∈ dedupNets [] r', ∃ s ∈ sup, s.ver = n.ver := by
    intro n hn
    have : Den r' n.ver n.addr := by
      have := (k2 n.ver n.addr).1 ⟨n, hn, mem_self⟩
      rwa [List.append_nil] at this
    rcases r1 _ _ this with h | h
    · simp at h
    · obtain ⟨s, hs', hm⟩ := (dsup _ _).1 h
      exact ⟨s, hs', hm.1⟩
  have hmix : mixed (dedupNets [] r') = false := by
    rw [mixed_false]
    intro a ha b hb
    obtain ⟨s, hs', e⟩ := hver a ha
    obtain ⟨t, ht, e'⟩ := hver b hb
    rw [← e, ← e', h1 s hs' t ht]
  refine ⟨sortAddrList (dedupNets [] r'), ?_⟩
  unfold addressListExclude
  rw [if_neg (by simp), mixed_false.2 h1, mixed_false.2 h2]
  simp only [Bool.or_self, Bool.false_eq_true, if_false]
  simp only [hr, bind, Except.bind, hmix, Bool.false_eq_true, if_false]

/-! ### FlattenAll -/

theorem flattenField_ok {inc exc : List Net} {old : Option (List Net)} {r} (hi : ∀ n ∈ inc, WF n)
    (he : ∀ n ∈ exc, WF n) (h : flattenField inc exc old = .ok r) :
    (exc = [] ∧ r = (inc, old)) ∨
    (exc ≠ [] ∧ r.2 = some r.1 ∧ (∀ n ∈ r.1, WF n) ∧ (∀ v x, Den r.1 v x → Den inc v x) ∧
      (∀ v x, Den inc v x ∧ ¬ Den exc v x → Den r.1 v x)) := by
  unfold flattenField at h
  split at h
  next hc => cases h; exact .inl ⟨by simpa using hc, rfl⟩
  next hc =>
    cases ha : addressListExclude inc exc false with
    | error e => rw [ha] at h; cases h
    | ok l =>
      rw [ha] at h; cases h
      obtain ⟨a, b, c⟩ := addressListExclude_over inc exc hi he ha
      exact .inr ⟨by simpa using hc, rfl, a, b, c⟩

theorem flattenField_total {inc exc : List Net} (old : Option (List Net)) (hi : ∀ n ∈ inc, WF n)
    (he : ∀ n ∈ exc, WF n) (h1 : ∀ a ∈ inc, ∀ b ∈ inc, a.ver = b.ver)
    (h2 : ∀ a ∈ exc, ∀ b ∈ exc, a.ver = b.ver) : ∃ r, flattenField inc exc old = .ok r := by
  unfold flattenField
  split
  · exact ⟨_, rfl⟩
  · obtain ⟨r, hr⟩ := addressListExclude_nc_total inc exc hi he h1 h2
    rw [hr]; exact ⟨_, rfl⟩

/-- a term all of whose networks are well formed -/
structure AddrsWF (t : Term) : Prop where
  address : ∀ n ∈ t.address, WF n
  addressExclude : ∀ n ∈ t.addressExclude, WF n
  source : ∀ n ∈ t.sourceAddress, WF n
  sourceExclude : ∀ n ∈ t.sourceAddressExclude, WF n
  destination : ∀ n ∈ t.destinationAddress, WF n
  destinationExclude : ∀ n ∈ t.destinationAddressExclude, WF n

/-- The shape of the result of `FlattenAll`: nothing but the address fields changes. -/
theorem flattenAll_shape {t o : Term} (h : flattenAll t = .ok o) :
    ∃ sa da ad fs fd fa, o = { t with
      flattened := true, sourceAddress := sa, flattenedSaddr := fs,
      destinationAddress := da, flattenedDaddr := fd, address := ad, flattenedAddr := fa } ∧
      ((t.sourceAddressExclude = [] ∧ t.destinationAddressExclude = [] ∧ t.addressExclude = [] ∧
        sa = t.sourceAddress ∧ da = t.destinationAddress ∧ ad = t.address ∧ fs = some sa ∧ fd = some da ∧
        fa = some ad) ∨
       (¬ (t.sourceAddressExclude = [] ∧ t.destinationAddressExclude = [] ∧ t.addressExclude = []) ∧
        flattenField t.sourceAddress t.sourceAddressExclude t.flattenedSaddr = .ok (sa, fs) ∧
        flattenField t.destinationAddress t.destinationAddressExclude t.flattenedDaddr = .ok (da, fd) ∧
        flattenField t.address t.addressExclude t.flattenedAddr = .ok (ad, fa))) := by
  unfold flattenAll at h
  split at h
  next hc =>
    cases h
    simp only [Bool.and_eq_true, List.isEmpty_iff] at hc
    exact ⟨_, _, _, _, _, _, rfl, .inl ⟨hc.1.1, hc.1.2, hc.2, rfl, rfl, rfl, rfl, rfl, rfl⟩⟩
  next hc =>
    simp only [Bool.and_eq_true, List.isEmpty_iff] at hc
    cases h1 : flattenField t.sourceAddress t.sourceAddressExclude t.flattenedSaddr with
    | error e => rw [h1] at h; cases h
    | ok s =>
      cases h2 : flattenField t.destinationAddress t.destinationAddressExclude t.flattenedDaddr with
      | error e => rw [h1, h2] at h; cases h
      | ok d =>
        cases h3 : flattenField t.address t.addressExclude t.flattenedAddr with
        | error e => rw [h1, h2, h3] at h; cases h
        | ok a =>
          rw [h1, h2, h3] at h; cases h
          exact ⟨_, _, _, _, _, _, rfl, .inr ⟨fun h => hc ⟨⟨h.1, h.2.1⟩, h.2.2⟩, rfl, rfl, rfl⟩⟩

/-- A term on which shading has not run yet (as built by the parser; policy.py:523-531). -/
def Fresh (t : Term) : Prop :=
  t.flattened = false ∧ t.flattenedAddr = none ∧ t.flattenedSaddr = none ∧ t.flattenedDaddr = none

/-- A flattened list, when non-empty, covers everything the field matches. -/
def Covers (flat : Option (List Net)) (inc exc : List Net) : Prop :=
  flat.getD [] = [] ∨
    ((∀ n ∈ flat.getD [], WF n) ∧ ∀ v x, AddrMatch inc exc v x → Den (flat.getD []) v x)

theorem covers_field {inc exc : List Net} {r} (hi : ∀ n ∈ inc, WF n)
    (he : ∀ n ∈ exc, WF n) (h : flattenField inc exc none = .ok r) : Covers r.2 inc exc := by
  rcases flattenField_ok hi he h with ⟨_, e⟩ | ⟨_, e, w, d1, d2⟩
  · subst e; exact .inl rfl
  · rw [Covers, e]
    rcases Classical.em (r.1 = []) with hr | hr
    · exact .inl hr
    · refine .inr ⟨w, ?_⟩
      rintro v x ⟨h1, h2⟩
      rcases h1 with h1 | h1
      · exfalso
        obtain ⟨n, ns, hn⟩ := List.exists_cons_of_ne_nil hr
        have := d1 n.ver n.addr ⟨n, by rw [hn]; exact List.mem_cons_self .., mem_self⟩
        rw [h1] at this; simp at this
      · exact d2 v x ⟨h1, h2⟩

theorem covers_noexc {inc : List Net} (hi : ∀ n ∈ inc, WF n) : Covers (some inc) inc [] := by
  rw [Covers]
  rcases Classical.em (inc = []) with hr | hr
  · exact .inl hr
  · refine .inr ⟨hi, ?_⟩
    rintro v x ⟨h1 | h1, _⟩
    · exact absurd h1 hr
    · exact h1

theorem flatten_covers {t o : Term} (hf : Fresh t) (w : AddrsWF t) (h : flattenAll t = .ok o) :
    Covers o.flattenedSaddr t.sourceAddress t.sourceAddressExclude ∧
    Covers o.flattenedDaddr t.destinationAddress t.destinationAddressExclude ∧
    Covers o.flattenedAddr t.address t.addressExclude := by
  obtain ⟨sa, da, ad, fs, fd, fa, rfl, hh⟩ := flattenAll_shape h
  obtain ⟨_, f1, f2, f3⟩ := hf
  simp only
  rcases hh with ⟨e1, e2, e3, rfl, rfl, rfl, rfl, rfl, rfl⟩ | ⟨_, h1, h2, h3⟩
  · rw [e1, e2, e3]
    exact ⟨covers_noexc w.source, covers_noexc w.destination, covers_noexc w.address⟩
  · rw [f2] at h1; rw [f3] at h2; rw [f1] at h3
    exact ⟨covers_field w.source w.sourceExclude h1, covers_field w.destination w.destinationExclude h2,
      covers_field w.address w.addressExclude h3⟩

/-! ### soundness of the containment test -/

theorem checkAddr_sound {sup sub : Option (List Net)} (hs : sup.getD [] ≠ [])
    (w1 : ∀ n ∈ sup.getD [], WF n) (h : checkAddressIsContained sup sub = true) :
    sub.getD [] ≠ [] ∧ ((∀ n ∈ sub.getD [], WF n) → ∀ v x, Den (sub.getD []) v x → Den (sup.getD []) v x) := by
  unfold checkAddressIsContained at h
  rw [if_neg (by simpa using hs)] at h
  split at h
  · cases h
  next hne =>
    refine ⟨by simpa using hne, ?_⟩
    rintro w2 v x ⟨n, hn, hx⟩
    have := List.all_eq_true.1 h n hn
    obtain ⟨q, hq, hh⟩ := List.any_eq_true.1 this
    exact ⟨q, hq, (subnetOf_iff (w2 n hn) (w1 q hq)).1 hh v x hx⟩

/-- A flattened list of the prior term: only addresses the field matches; empty only if the field is
not set. -/
def Within (flat : Option (List Net)) (inc exc : List Net) : Prop :=
  (flat.getD [] = [] → inc = [] ∧ exc = []) ∧ (∀ n ∈ flat.getD [], WF n) ∧
    ∀ v x, Den (flat.getD []) v x → AddrMatch inc exc v x

/-- one side of the address comparison: if the prior field passes the check against a
flattened list covering a field of the other term, it matches what that field matches -/
theorem checkAddr_field {inc exc : List Net} {sup sub : Option (List Net)} {inc' exc' : List Net}
    (w : Within sup inc exc) (hc : Covers sub inc' exc') (h : checkAddressIsContained sup sub = true)
    (v x) (hm : AddrMatch inc' exc' v x) : AddrMatch inc exc v x := by
  rcases Classical.em (sup.getD [] = []) with hi | hi
  · obtain ⟨e1, e2⟩ := w.1 hi
    exact ⟨.inl e1, by rw [e2]; simp⟩
  · obtain ⟨h1, h2⟩ := checkAddr_sound hi w.2.1 h
    rcases hc with hc | ⟨hc1, hc2⟩
    · exact absurd hc h1
    · exact w.2.2 v x (h2 hc1 v x (hc2 v x hm))

/-- What is needed of an include/exclude pair of the prior term: no field of the term has an exclude
(`none`), or the field is not set, or its exclusion is exact and leaves something. -/
def PriorField (none : Prop) (inc exc : List Net) : Prop :=
  none ∨ (inc = [] ∧ exc = []) ∨
    (exc ≠ [] ∧ Disjoint inc ∧ (∀ a ∈ inc, ∀ b ∈ inc, a.ver = b.ver) ∧
      (∀ a ∈ exc, ∀ b ∈ exc, a.ver = b.ver) ∧ ∃ v x, Den inc v x ∧ ¬ Den exc v x)

theorem within_field {none : Prop} {inc exc : List Net} {r} (hi : ∀ n ∈ inc, WF n)
    (he : ∀ n ∈ exc, WF n) (hf : PriorField none inc exc) (hn : ¬ none)
    (h : flattenField inc exc Option.none = .ok r) : Within r.2 inc exc := by
  rcases hf with hf | ⟨rfl, rfl⟩ | ⟨h1, h2, h3, h4, v, x, h5⟩
  · exact absurd hf hn
  · cases h
    exact ⟨fun _ => ⟨rfl, rfl⟩, by simp, by simp⟩
  · obtain ⟨q, e, w, d⟩ := addressListExclude_nocollapse_spec inc exc hi he h3 h4 h2
    unfold flattenField at h
    rw [if_neg (by simpa using h1), e] at h
    cases h
    simp only [Within, Option.getD_some]
    refine ⟨?_, w, ?_⟩
    · intro hq
      have := (d v x).2 h5
      rw [hq] at this; simp at this
    · intro v x hd
      exact ⟨.inr ((d v x).1 hd).1, ((d v x).1 hd).2⟩

theorem within_noexc {inc : List Net} (hi : ∀ n ∈ inc, WF n) : Within (some inc) inc [] :=
  ⟨fun h => ⟨h, rfl⟩, hi, fun _ _ h => ⟨.inr h, by simp⟩⟩

theorem checkPort_match {sup sub : List (Nat × Nat)} (h : checkPortIsContained sup sub = true) {x : Nat}
    (hm : PortMatch sub x) : PortMatch sup x := by
  rcases Classical.em (sup = []) with hi | hi
  · exact .inl hi
  · obtain ⟨h1, h2⟩ := checkPort_sound hi h
    rcases hm with hm | hm
    · exact absurd hm h1
    · exact .inr (h2 x hm)

theorem sortStrs_mem {l m : List String} (h : (sortStrs l == sortStrs m) = true) {a : String} :
    a ∈ l ↔ a ∈ m := by
  rw [beq_iff_eq] at h
  unfold sortStrs at h
  rw [← mem_isort (le := fun a b : String => !decide (b < a)), h, mem_isort]

theorem subListOk_oneOf {s o : List String} {strict : Bool} (h : subListOk s o strict = true) {x : String}
    (hm : OneOf o x) : OneOf s x := by
  unfold subListOk at h
  split at h
  next hs =>
    simp only [Bool.and_eq_true, Bool.not_eq_true', List.all_eq_true] at h
    rcases hm with hm | hm
    · rw [hm] at h; simp at h
    · right; simpa using h.2 x hm
  next hs => left; simpa using hs

/-- The term has no exclude list at all. -/
def NoExclude (s : Term) : Prop :=
  s.sourceAddressExclude = [] ∧ s.destinationAddressExclude = [] ∧ s.addressExclude = []

/-- What the soundness theorem needs to know about the prior term. -/
structure Checkable (s t : Term) : Prop where
  fresh : Fresh s
  wf : AddrsWF s
  verbatim : s.verbatim = []
  srcField : PriorField (NoExclude s) s.sourceAddress s.sourceAddressExclude
  dstField : PriorField (NoExclude s) s.destinationAddress s.destinationAddressExclude
  addrField : PriorField (NoExclude s) s.address s.addressExclude
  protoOrExcept : s.protocol = [] ∨ s.protocolExcept = []
  proto : (∀ p ∈ t.protocol, ∀ q ∈ t.protocol, p = q) ∨ (∀ p ∈ t.protocol, p ∈ s.protocol)
  protoExcept : (∀ p ∈ s.protocolExcept, ∀ q ∈ s.protocolExcept, p = q) ∨
    (∀ p ∈ s.protocolExcept, p ∈ t.protocolExcept)
  option : (∀ p ∈ s.option, ∀ q ∈ s.option, p = q) ∨ (∀ p ∈ s.option, p ∈ t.option)
  fcExcept : (∀ p ∈ s.forwardingClassExcept, ∀ q ∈ s.forwardingClassExcept, p = q) ∨
    (∀ p ∈ s.forwardingClassExcept, p ∈ t.forwardingClassExcept)
  dstTag : s.sourceTag = [] → s.destinationTag = []
  fragment : s.fragmentOffset = [] ∨
    ∃ a b c d, a ≤ b ∧ c ≤ d ∧ s.fragmentOffset = [a, b] ∧ t.fragmentOffset = [c, d]
  hopLimit : s.hopLimit = [] ∨ s.hopLimit = t.hopLimit ∨
    ∃ a b c d, d ≤ b ∧ s.hopLimit = [a, b] ∧ t.hopLimit = [c, d]
  packetLength : s.packetLength = [] ∨ s.packetLength = t.packetLength
  rest : ∀ p, MatchRest s p

/-- membership from a reversed inclusion of a list with one distinct element -/
theorem rev_incl {s o : List String} (h : s ≠ [] → o ≠ [] ∧ ∀ a ∈ o, a ∈ s)
    (hs : (∀ p ∈ s, ∀ q ∈ s, p = q) ∨ (∀ p ∈ s, p ∈ o)) : ∀ p ∈ s, p ∈ o := by
  rcases hs with hs | hs
  · intro p hp
    obtain ⟨h1, h2⟩ := h (List.ne_nil_of_mem hp)
    obtain ⟨a, as, ha⟩ := List.exists_cons_of_ne_nil h1
    have : a ∈ o := by rw [ha]; exact List.mem_cons_self ..
    rw [hs p hp a (h2 a this)]; exact this
  · exact hs

theorem protocolOk_sound {s t : Term} (h : protocolOk s t = true) (hc : Checkable s t) {p : Packet}
    (hm : MatchProto t p) : MatchProto s p := by
  unfold protocolOk at h
  obtain ⟨m1, m2⟩ := hm
  split at h
  next hs =>
    have hs' : s.protocol ≠ [] := by simpa using hs
    have hpe : s.protocolExcept = [] := hc.protoOrExcept.resolve_left hs'
    split at h
    next ho =>
      have ho' : t.protocol ≠ [] := by simpa using ho
      unfold checkProtocolIsContained at h
      rw [if_neg (by simpa using ho'), if_neg (by simpa using hs')] at h
      refine ⟨.inr ?_, by rw [hpe]; simp⟩
      have hp := m1.resolve_left ho'
      rcases hc.proto with hp1 | hp1
      · obtain ⟨a, as, ha⟩ := List.exists_cons_of_ne_nil hs'
        have ha' : a ∈ s.protocol := by rw [ha]; exact List.mem_cons_self ..
        have := List.all_eq_true.1 h a ha'
        rw [hp1 p.proto hp a (by simpa using this)]; exact ha'
      · exact hp1 _ hp
    · cases h
  next hs =>
    have hs' : s.protocol = [] := by simpa using hs
    refine ⟨.inl hs', ?_⟩
    intro hin
    have hpe : s.protocolExcept ≠ [] := List.ne_nil_of_mem hin
    rw [if_pos (by simpa using hpe)] at h
    split at h
    next ho =>
      have ho' : t.protocolExcept ≠ [] := by simpa using ho
      unfold checkProtocolIsContained at h
      rw [if_neg (by simpa using hpe), if_neg (by simpa using ho')] at h
      refine m2 (rev_incl ?_ hc.protoExcept _ hin)
      intro _
      exact ⟨ho', fun a ha => by simpa using List.all_eq_true.1 h a ha⟩
    next ho =>
      split at h
      next hp =>
        have hp' : t.protocol ≠ [] := by simpa using hp
        have := List.all_eq_true.1 h p.proto (m1.resolve_left hp')
        simp at this
        exact this hin
      · cases h

theorem subListOk_incl {s o : List String} {strict : Bool} (h : subListOk s o strict = true) (hs : s ≠ []) :
    o ≠ [] ∧ ∀ a ∈ o, a ∈ s := by
  unfold subListOk at h
  rw [if_pos (by simpa using hs)] at h
  simp only [Bool.and_eq_true, Bool.not_eq_true', List.all_eq_true] at h
  exact ⟨by simpa using h.1, fun a ha => by simpa using h.2 a ha⟩

theorem sortPairs_ne {l : List (String × String)} : sortPairs l = [] ↔ l = [] := by
  unfold sortPairs
  constructor
  · intro h
    have := (isort_perm (fun a b : String × String => !(decide (b.1 < a.1) || (b.1 == a.1 && decide (b.2 < a.2)))) l).length_eq
    rw [h] at this
    exact List.length_eq_zero_iff.1 this.symm
  · intro h; rw [h]; rfl

/-- What a positive answer of `__contains__` gives. -/
theorem contains_true {s t : Term} (h : contains s t = .ok true) :
    protocolOk s t = true ∧ (s.verbatim = [] → t.verbatim = []) ∧
    ∃ s' t', flattenIfNeeded s = .ok s' ∧ flattenIfNeeded t = .ok t' ∧ addressOk s' t' = true ∧
      portsOk s' t' = true ∧ prefixesOk s' t' = true ∧ miscOk s' t' = true := by
  unfold contains containsM at h
  split at h
  · cases h
  next hv =>
    split at h
    · cases h
    next hp =>
      refine ⟨by simpa using hp, ?_, ?_⟩
      · intro hs
        simp only [Bool.and_eq_true, Bool.or_eq_true, not_and, Bool.not_eq_true', Bool.not_eq_false] at hv
        refine Classical.byContradiction fun hn => ?_
        have := hv (.inr (by simpa using hn))
        rw [hs, beq_iff_eq] at this
        exact hn (sortPairs_ne.1 this.symm)
      · cases h1 : flattenIfNeeded s with
        | error e => rw [h1] at h; cases h
        | ok s' =>
          cases h2 : flattenIfNeeded t with
          | error e => rw [h1, h2] at h; cases h
          | ok t' =>
            rw [h1, h2] at h
            simp only [bind, Except.bind] at h
            have h' := Except.ok.inj h
            simp only [Bool.and_eq_true] at h'
            exact ⟨s', t', rfl, rfl, h'.1.1.1, h'.1.1.2, h'.1.2, h'.2⟩

theorem flatten_within {s t o : Term} (hc : Checkable s t) (h : flattenAll s = .ok o) :
    Within o.flattenedSaddr s.sourceAddress s.sourceAddressExclude ∧
    Within o.flattenedDaddr s.destinationAddress s.destinationAddressExclude ∧
    Within o.flattenedAddr s.address s.addressExclude := by
  obtain ⟨sa, da, ad, fs, fd, fa, rfl, hh⟩ := flattenAll_shape h
  obtain ⟨_, f1, f2, f3⟩ := hc.fresh
  have w := hc.wf
  simp only
  rcases hh with ⟨e1, e2, e3, rfl, rfl, rfl, rfl, rfl, rfl⟩ | ⟨hn, h1, h2, h3⟩
  · rw [e1, e2, e3]
    exact ⟨within_noexc w.source, within_noexc w.destination, within_noexc w.address⟩
  · rw [f2] at h1; rw [f3] at h2; rw [f1] at h3
    exact ⟨within_field w.source w.sourceExclude hc.srcField hn h1,
      within_field w.destination w.destinationExclude hc.dstField hn h2,
      within_field w.address w.addressExclude hc.addrField hn h3⟩

theorem isort_two {α : Type} {le : α → α → Bool} {a b : α} (h : le a b = true) :
    isort le [a, b] = [a, b] := by
  simp [isort, insertBy, h]

theorem fragmentOk_sound {l m : List Nat} {x : Nat} (h : fragmentOk l m = true)
    (hc : l = [] ∨ ∃ a b c d, a ≤ b ∧ c ≤ d ∧ l = [a, b] ∧ m = [c, d]) (hm : RangeMatch m x) :
    RangeMatch l x := by
  rcases hc with rfl | ⟨a, b, c, d, h1, h2, rfl, rfl⟩
  · trivial
  · unfold fragmentOk at h
    rw [if_neg (by simp), if_neg (by simp)] at h
    simp only [sortInts, isort_two (le := fun a b => decide (a ≤ b)) (a := a) (b := b) (by simpa using h1),
      isort_two (le := fun a b => decide (a ≤ b)) (a := c) (b := d) (by simpa using h2)] at h
    simp [intsLt] at h
    obtain ⟨m1, m2⟩ := hm
    exact ⟨by omega, by omega⟩

theorem hopLimitOk_sound {l m : List Nat} {x : Nat} (h : hopLimitOk l m = true)
    (hc : l = [] ∨ l = m ∨ ∃ a b c d, d ≤ b ∧ l = [a, b] ∧ m = [c, d]) (hm : RangeMatch m x) :
    RangeMatch l x := by
  rcases hc with rfl | rfl | ⟨a, b, c, d, h1, rfl, rfl⟩
  · trivial
  · exact hm
  · simp [hopLimitOk] at h
    obtain ⟨m1, m2⟩ := hm
    exact ⟨by omega, by omega⟩

theorem contains_sound {s t : Term} (h : contains s t = .ok true) (hc : Checkable s t) (ht : Fresh t)
    (wt : AddrsWF t) {p : Packet} (hm : Matches t p) : Matches s p := by
  obtain ⟨hproto, _, s', t', hs, ht', ha, hpo, hpr, hmi⟩ := contains_true h
  unfold flattenIfNeeded at hs ht'
  rw [hc.fresh.1, if_neg (by simp)] at hs
  rw [ht.1, if_neg (by simp)] at ht'
  obtain ⟨cs, cd, ca⟩ := flatten_covers ht wt ht'
  obtain ⟨ws, wd, wa⟩ := flatten_within hc hs
  obtain ⟨sa, da, ad, fs, fd, fa, rfl, hh⟩ := flattenAll_shape ht'
  obtain ⟨sa', da', ad', fs', fd', fa', rfl, hh'⟩ := flattenAll_shape hs
  obtain ⟨⟨ma, ms, md⟩, ⟨mp, msp, mdp⟩, mpr, mpx, mmi, mre⟩ := hm
  simp only [addressOk, Bool.and_eq_true, Bool.or_eq_true] at ha
  simp only [portsOk, Bool.and_eq_true, Bool.or_eq_true] at hpo
  simp only [prefixesOk, Bool.and_eq_true, Bool.or_eq_true] at hpr
  simp only [miscOk, Bool.and_eq_true] at hmi
  simp only at cs cd ca ws wd wa
  refine ⟨⟨?_, ?_, ?_⟩, ⟨?_, ?_, ?_⟩, protocolOk_sound hproto hc mpr, ?_, ?_, hc.rest p⟩
  · rcases Classical.em (fa'.getD [] = []) with hi | hi
    · exact .inl (wa.1 hi)
    · rcases ha.1.1.1 with (h1 | h1) | h1
      · rcases ma with ⟨e1, e2⟩ | ma | ma
        · exfalso
          obtain ⟨g1, _⟩ := checkAddr_sound hi wa.2.1 h1
          rcases ca with c | ⟨_, c⟩
          · exact g1 c
          · -- an empty field matches every point, in both families
            obtain ⟨n, hmem, hn1⟩ := c .v4 (2 ^ 32) ⟨.inl e1, by rw [e2]; simp⟩
            have wn : WF n := by
              rcases hh with ⟨_, _, _, _, _, rfl, _, _, rfl⟩ | ⟨_, _, _, h3⟩
              · exact wt.address n hmem
              · rw [e2] at h3
                unfold flattenField at h3
                simp only [List.isEmpty_nil, if_true, ht.2.1] at h3
                cases h3; cases hmem
            have := mem_lt wn hn1
            simp [Ver.bits] at this
        · exact .inr (.inl (checkAddr_field wa ca h1 _ _ ma))
        · exact .inr (.inr (checkAddr_field wa ca h1 _ _ ma))
      · exact .inr (.inl (checkAddr_field wa cs h1 _ _ ms))
      · exact .inr (.inr (checkAddr_field wa cd h1 _ _ md))
  · exact checkAddr_field ws cs ha.1.2 _ _ ms
  · exact checkAddr_field wd cd ha.2 _ _ md
  · rcases hpo.1.1 with h1 | (h1 | h1) | h1
    · exact .inl (by simpa using h1)
    · rcases Classical.em (s.port = []) with hi | hi
      · exact .inl hi
      · obtain ⟨g1, g2⟩ := checkPort_sound hi h1
        rcases mp with e | e | e
        · exact absurd e g1
        · exact .inr (.inl (g2 _ e))
        · exact .inr (.inr (g2 _ e))
    · rcases checkPort_match h1 msp with e | e
      · exact .inl e
      · exact .inr (.inl e)
    · rcases checkPort_match h1 mdp with e | e
      · exact .inl e
      · exact .inr (.inr e)
  · exact checkPort_match hpo.1.2 msp
  · exact checkPort_match hpo.2 mdp
  · obtain ⟨x1, x2, x3, x4, x5, x6⟩ := mpx
    obtain ⟨⟨⟨⟨h1, h2⟩, h3⟩, h4⟩, h5⟩ := hpr
    refine ⟨?_, ?_, ?_, ?_, ?_, ?_⟩
    · rcases h1 with h1 | h1
      · exact .inl (by simpa using h1)
      · rcases x1 with x1 | ⟨n, hn, hx⟩
        · left
          rw [List.eq_nil_iff_forall_not_mem]
          intro a ha
          have := (sortStrs_mem h1).1 ha
          rw [x1] at this; cases this
        · exact .inr ⟨n, (sortStrs_mem h1).2 hn, hx⟩
    · intro n hn
      rcases h2 with h2 | h2
      · rw [List.isEmpty_iff] at h2; rw [h2] at hn; cases hn
      · exact x2 n ((sortStrs_mem h2).1 hn)
    · rcases h3 with h3 | h3
      · exact .inl (by simpa using h3)
      · rcases x3 with x3 | ⟨n, hn, hx⟩
        · left
          rw [List.eq_nil_iff_forall_not_mem]
          intro a ha
          have := (sortStrs_mem h3).1 ha
          rw [x3] at this; cases this
        · exact .inr ⟨n, (sortStrs_mem h3).2 hn, hx⟩
    · intro n hn
      rcases h4 with h4 | h4
      · rw [List.isEmpty_iff] at h4; rw [h4] at hn; cases hn
      · exact x4 n ((sortStrs_mem h4).1 hn)
    · rcases h5 with h5 | h5
      · exact .inl (by simpa using h5)
      · rcases x5 with x5 | x5
        · left
          rw [List.eq_nil_iff_forall_not_mem]
          intro a ha
          have := (sortStrs_mem h5.1).1 ha
          rw [x5] at this; cases this
        · exact .inr ((sortStrs_mem h5.1).2 x5)
    · rcases h5 with h5 | h5
      · exact .inl (hc.dstTag (by simpa using h5))
      · rcases x6 with x6 | x6
        · left
          rw [List.eq_nil_iff_forall_not_mem]
          intro a ha
          have := (sortStrs_mem h5.2).1 ha
          rw [x6] at this; cases this
        · exact .inr ((sortStrs_mem h5.2).2 x6)
  · obtain ⟨y1, y2, y3, y4, y5, y6, y7, y8, y9, y10, y11⟩ := mmi
    obtain ⟨⟨⟨⟨⟨⟨⟨⟨⟨⟨⟨⟨⟨⟨⟨⟨⟨⟨z1, z2⟩, z3⟩, z4⟩, _⟩, _⟩, _⟩, _⟩, _⟩, zf⟩, zh⟩, _⟩, _⟩, i1⟩, i2⟩, _⟩, _⟩, q1⟩, q2⟩ := hmi
    refine ⟨subListOk_oneOf z1 y1, ?_, subListOk_oneOf z3 y3, ?_, .inl (by simpa using i1),
      .inl (by simpa using i2), .inl (by simpa using q1), .inl (by simpa using q2), ?_, ?_, ?_⟩
    · intro o ho
      exact y2 o (rev_incl (subListOk_incl z2) hc.option o ho)
    · intro hin
      exact y4 (rev_incl (subListOk_incl z4) hc.fcExcept _ hin)
    · exact fragmentOk_sound zf hc.fragment y9
    · exact hopLimitOk_sound zh hc.hopLimit y10
    · rcases hc.packetLength with e | e
      · rw [e]; trivial
      · rw [e]; exact y11

end Verif
