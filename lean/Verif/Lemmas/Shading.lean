import Verif.Lemmas.Policy
import Verif.Spec.List

namespace Verif
open Spec Policy Nacaddr

/-! ### the mutation done by the shading check -/

/-- `t'` is `t`, possibly flattened. -/
def SameTerm (t t' : Term) : Prop := t' = t ∨ (t.flattened = false ∧ flattenAll t = .ok t')

theorem sameTerm_fields {t t' : Term} (h : SameTerm t t') :
    t'.protocol = t.protocol ∧ t'.protocolExcept = t.protocolExcept ∧ t'.verbatim = t.verbatim ∧
    t'.action = t.action := by
  rcases h with rfl | ⟨_, h⟩
  · exact ⟨rfl, rfl, rfl, rfl⟩
  · obtain ⟨_, _, _, _, _, _, rfl, _⟩ := flattenAll_shape h
    exact ⟨rfl, rfl, rfl, rfl⟩

theorem sameTerm_flatten {t t' : Term} (h : SameTerm t t') : flattenIfNeeded t' = flattenIfNeeded t := by
  rcases h with rfl | ⟨hf, h⟩
  · rfl
  · have : t'.flattened = true := by
      obtain ⟨_, _, _, _, _, _, rfl, _⟩ := flattenAll_shape h
      rfl
    unfold flattenIfNeeded
    rw [this, hf, if_pos rfl, if_neg (by simp), h]

theorem sameTerm_of_flatten {t o : Term} (h : flattenIfNeeded t = .ok o) : SameTerm t o := by
  unfold flattenIfNeeded at h
  split at h
  · cases h; exact .inl rfl
  next hf => exact .inr ⟨by simpa using hf, h⟩

theorem containsM_same {p p' t t' : Term} (hp : SameTerm p p') (ht : SameTerm t t') :
    (∀ e, containsM p' t' = .error e → contains p t = .error e) ∧
    (∀ r, containsM p' t' = .ok r → contains p t = .ok r.1 ∧ SameTerm p r.2.1 ∧ SameTerm t r.2.2) := by
  obtain ⟨a1, a2, a3, _⟩ := sameTerm_fields hp
  obtain ⟨b1, b2, b3, _⟩ := sameTerm_fields ht
  have hpo : protocolOk p' t' = protocolOk p t := by unfold protocolOk; rw [a1, a2, b1, b2]
  unfold contains containsM
  rw [a3, b3, hpo, sameTerm_flatten hp, sameTerm_flatten ht]
  split
  · refine ⟨?_, ?_⟩ <;> intro r h <;> cases h
    exact ⟨rfl, hp, ht⟩
  · split
    · refine ⟨?_, ?_⟩ <;> intro r h <;> cases h
      exact ⟨rfl, hp, ht⟩
    · cases h1 : flattenIfNeeded p with
      | error e => refine ⟨?_, ?_⟩ <;> intro r h <;> cases h; rfl
      | ok s =>
        cases h2 : flattenIfNeeded t with
        | error e => refine ⟨?_, ?_⟩ <;> intro r h <;> cases h; rfl
        | ok o =>
          refine ⟨?_, ?_⟩ <;> intro r h <;> cases h
          exact ⟨rfl, sameTerm_of_flatten h1, sameTerm_of_flatten h2⟩

/-- `p` is reported to shade `t` -/
def Shades (p t : Term) : Prop := contains p t = .ok true ∧ "next" ∉ p.action

theorem sameTerm_trans_left {t a b : Term} (_ : SameTerm t a) (h : SameTerm t b) : SameTerm t b := h

theorem shadedBy_spec (t : Term) : ∀ (ps ps' : List Term) (t' : Term), All₂ SameTerm ps ps' →
    SameTerm t t' →
    (∀ e, shadedBy t' ps' = .error e → ∃ p ∈ ps, contains p t = .error e) ∧
    (∀ r, shadedBy t' ps' = .ok r → (r.1 = true ↔ ∃ p ∈ ps, Shades p t) ∧ SameTerm t r.2.1 ∧
      All₂ SameTerm ps r.2.2) := by
  intro ps
  induction ps with
  | nil =>
    intro ps' t' h ht
    cases h
    refine ⟨?_, ?_⟩ <;> intro r h <;> cases h
    exact ⟨by simp, ht, .nil⟩
  | cons p ps ih =>
    intro ps' t' h ht
    cases h with
    | @cons _ p' _ ps' hp hps =>
      obtain ⟨c1, c2⟩ := containsM_same hp ht
      unfold shadedBy
      cases hc : containsM p' t' with
      | error e =>
        refine ⟨?_, ?_⟩ <;> intro r h <;> cases h
        exact ⟨p, List.mem_cons_self .., c1 _ hc⟩
      | ok c =>
        obtain ⟨d1, d2, d3⟩ := c2 c hc
        obtain ⟨i1, i2⟩ := ih ps' c.2.2 hps d3
        simp only [bind, Except.bind]
        cases hr : shadedBy c.2.2 ps' with
        | error e =>
          refine ⟨?_, ?_⟩ <;> intro r h <;> cases h
          obtain ⟨q, hq, he⟩ := i1 _ hr
          exact ⟨q, List.mem_cons_of_mem _ hq, he⟩
        | ok r' =>
          refine ⟨?_, ?_⟩ <;> intro r h <;> cases h
          obtain ⟨j1, j2, j3⟩ := i2 r' hr
          refine ⟨?_, j2, .cons d2 j3⟩
          simp only [Bool.or_eq_true, Bool.and_eq_true, Bool.not_eq_true', j1, List.mem_cons, exists_eq_or_imp]
          refine or_congr ?_ Iff.rfl
          unfold Shades
          rw [d1, (sameTerm_fields d2).2.2.2]
          constructor
          · rintro ⟨h1, h2⟩
            exact ⟨by rw [h1], by simpa using h2⟩
          · rintro ⟨h1, h2⟩
            exact ⟨by simpa using h1, by simpa using h2⟩

theorem forall₂_append {R : α → β → Prop} {a : List α} {a' : List β} {c : α} {c' : β}
    (h : All₂ R a a') (h' : R c c') : All₂ R (a ++ [c]) (a' ++ [c']) := by
  induction h with
  | nil => exact .cons h' .nil
  | cons h1 _ ih => exact .cons h1 ih

theorem anyShaded_spec : ∀ (ts ps ps' : List Term), All₂ SameTerm ps ps' →
    (∀ e, anyShaded ps' ts = .error e → ¬ (∀ p ∈ ps, ∀ t ∈ ts, contains p t ≠ .error e) ∨
      ¬ ts.Pairwise (fun p t => contains p t ≠ .error e)) ∧
    (∀ r, anyShaded ps' ts = .ok r → (r.1 = false ↔ (∀ p ∈ ps, ∀ t ∈ ts, ¬ Shades p t) ∧
      ts.Pairwise (fun p t => ¬ Shades p t)) ∧ All₂ SameTerm (ps ++ ts) r.2) := by
  intro ts
  induction ts with
  | nil =>
    intro ps ps' h
    refine ⟨?_, ?_⟩ <;> intro r hr <;> cases hr
    exact ⟨by simp, by rwa [List.append_nil]⟩
  | cons t ts ih =>
    intro ps ps' h
    obtain ⟨s1, s2⟩ := shadedBy_spec t ps ps' t h (.inl rfl)
    unfold anyShaded
    cases hs : shadedBy t ps' with
    | error e =>
      refine ⟨?_, ?_⟩ <;> intro r hr <;> cases hr
      obtain ⟨p, hp, he⟩ := s1 _ hs
      exact .inl fun hh => hh p hp t (List.mem_cons_self ..) he
    | ok a =>
      obtain ⟨a1, a2, a3⟩ := s2 a hs
      obtain ⟨i1, i2⟩ := ih (ps ++ [t]) (a.2.2 ++ [a.2.1]) (forall₂_append a3 a2)
      simp only [bind, Except.bind]
      cases hb : anyShaded (a.2.2 ++ [a.2.1]) ts with
      | error e =>
        refine ⟨?_, ?_⟩ <;> intro r hr <;> cases hr
        rcases i1 _ hb with k | k
        · refine Classical.or_iff_not_imp_left.2 fun k1 hpw => k ?_
          have k1' := Classical.not_not.1 k1
          have hpw' := List.pairwise_cons.1 hpw
          intro p hp u hu
          rcases List.mem_append.1 hp with hp | hp
          · exact k1' p hp u (List.mem_cons_of_mem _ hu)
          · rw [List.mem_singleton] at hp; subst hp; exact hpw'.1 u hu
        · exact .inr fun hpw => k (List.pairwise_cons.1 hpw).2
      | ok b =>
        refine ⟨?_, ?_⟩ <;> intro r hr <;> cases hr
        obtain ⟨j1, j2⟩ := i2 b hb
        refine ⟨?_, by simpa using j2⟩
        have a1' : a.1 = false ↔ ¬ ∃ p ∈ ps, Shades p t := by
          rw [← Bool.not_eq_true, a1]
        simp only [Bool.or_eq_false_iff, j1, a1', List.pairwise_cons, List.mem_append,
          List.mem_cons, List.not_mem_nil, or_false]
        constructor
        · rintro ⟨k1, k2, k3⟩
          refine ⟨?_, fun u hu => k2 t (.inr rfl) u hu, k3⟩
          rintro p hp u (rfl | hu)
          · exact fun hh => k1 ⟨p, hp, hh⟩
          · exact k2 p (.inl hp) u hu
        · rintro ⟨k1, k2, k3⟩
          refine ⟨?_, ?_, k3⟩
          · rintro ⟨p, hp, hh⟩
            exact k1 p hp t (.inl rfl) hh
          · rintro p (hp | rfl) u hu
            · exact k1 p hp u (.inr hu)
            · exact k2 u hu

theorem not_pairwise {R : α → α → Prop} : ∀ {l : List α}, ¬ l.Pairwise (fun a b => ¬ R a b) ↔
    ∃ a x b y c, l = a ++ x :: (b ++ y :: c) ∧ R x y := by
  intro l
  induction l with
  | nil => simp
  | cons z zs ih =>
    rw [List.pairwise_cons]
    constructor
    · intro h
      rcases Classical.em (zs.Pairwise (fun a b => ¬ R a b)) with hp | hp
      · have : ¬ ∀ y ∈ zs, ¬ R z y := fun hh => h ⟨hh, hp⟩
        have ⟨y, hy, hr⟩ : ∃ y ∈ zs, R z y := by
          refine Classical.byContradiction fun hn => this fun y hy hr => hn ⟨y, hy, hr⟩
        obtain ⟨b, c, rfl⟩ := List.append_of_mem hy
        exact ⟨[], z, b, y, c, rfl, hr⟩
      · obtain ⟨a, x, b, y, c, rfl, hr⟩ := ih.1 hp
        exact ⟨z :: a, x, b, y, c, rfl, hr⟩
    · rintro ⟨a, x, b, y, c, he, hr⟩ ⟨h1, h2⟩
      cases a with
      | nil =>
        simp only [List.nil_append, List.cons.injEq] at he
        obtain ⟨rfl, rfl⟩ := he
        exact h1 y (by simp) hr
      | cons w ws =>
        simp only [List.cons_append, List.cons.injEq] at he
        obtain ⟨_, rfl⟩ := he
        exact ih.2 ⟨ws, x, b, y, c, rfl, hr⟩ h2

/-- every ordered pair of the list can be compared without an exception -/
def Comparable (ts : List Term) : Prop := ts.Pairwise (fun p t => ∃ b, contains p t = .ok b)

theorem detectShading_spec (ts : List Term) (h : Comparable ts) :
    (detectShading ts = .error (.raised "ShadingError") ↔
      ∃ a p b t c, ts = a ++ p :: (b ++ t :: c) ∧ Shades p t) ∧
    ((¬ ∃ a p b t c, ts = a ++ p :: (b ++ t :: c) ∧ Shades p t) →
      ∃ ts', detectShading ts = .ok ts' ∧ All₂ SameTerm ts ts') := by
  obtain ⟨h1, h2⟩ := anyShaded_spec ts [] [] .nil
  unfold detectShading
  cases hr : anyShaded [] ts with
  | error e =>
    exfalso
    rcases h1 e hr with k | k
    · exact k (by simp)
    · refine k (h.imp ?_)
      rintro p t ⟨b, hb⟩ he
      rw [hb] at he; cases he
  | ok r =>
    obtain ⟨k1, k2⟩ := h2 r hr
    simp only [List.not_mem_nil, false_implies, implies_true, true_and] at k1
    rw [← not_pairwise (R := Shades), ← k1]
    simp only [bind, Except.bind]
    cases hb : r.1 with
    | false => simp only [Bool.false_eq_true, if_false]; exact ⟨by simp, fun _ => ⟨r.2, rfl, by simpa using k2⟩⟩
    | true => simp

theorem detectShading_ok {ts ts' : List Term} (h : detectShading ts = .ok ts') :
    All₂ SameTerm ts ts' := by
  obtain ⟨h1, h2⟩ := anyShaded_spec ts [] [] .nil
  unfold detectShading at h
  cases hr : anyShaded [] ts with
  | error e => rw [hr] at h; cases h
  | ok r =>
    obtain ⟨_, k2⟩ := h2 r hr
    rw [hr] at h
    simp only [bind, Except.bind] at h
    split at h
    · cases h
    · cases h; simpa using k2

/-! ### first match -/

theorem firstMatch_delete {a b c : List Term} {s t : Term} {p : Packet}
    (hs : Terminal s) (hc : Matches t p → Matches s p) (u : Term) :
    FirstMatch (a ++ s :: (b ++ t :: c)) p u ↔ FirstMatch (a ++ s :: (b ++ c)) p u := by
  unfold FirstMatch
  constructor
  · rintro ⟨x, y, he, hm, ht, hb⟩
    rcases Classical.em (Matches s p) with hsp | hsp
    · -- the decision falls in a ++ [s]
      rcases List.append_eq_append_iff.1 he with ⟨a', h1, h2⟩ | ⟨c', h1, h2⟩
      · -- x = a ++ a'
        cases a' with
        | nil =>
          simp only [List.nil_append, List.cons.injEq] at h2
          obtain ⟨rfl, rfl⟩ := h2
          refine ⟨a, b ++ c, rfl, hm, ht, ?_⟩
          intro q hq; exact hb q (by rw [h1]; simpa using hq)
        | cons w ws =>
          simp only [List.cons_append, List.cons.injEq] at h2
          obtain ⟨rfl, _⟩ := h2
          exact absurd ⟨hsp, hs⟩ (hb s (by rw [h1]; simp))
      · cases c' with
        | nil =>
          simp only [List.nil_append, List.cons.injEq] at h2
          obtain ⟨rfl, rfl⟩ := h2
          rw [List.append_nil] at h1
          subst h1
          exact ⟨a, b ++ c, rfl, hm, ht, hb⟩
        | cons w ws =>
          simp only [List.cons_append, List.cons.injEq] at h2
          obtain ⟨rfl, _⟩ := h2
          subst h1
          exact ⟨x, ws ++ s :: (b ++ c), by simp, hm, ht, hb⟩
    · have htp : ¬ Matches t p := fun h => hsp (hc h)
      -- deleting a non-matching element
      have : a ++ s :: (b ++ t :: c) = (a ++ s :: b) ++ t :: c := by simp
      rw [this] at he
      have goal : a ++ s :: (b ++ c) = (a ++ s :: b) ++ c := by simp
      rw [goal]
      rcases List.append_eq_append_iff.1 he with ⟨a', h1, h2⟩ | ⟨c', h1, h2⟩
      · cases a' with
        | nil =>
          simp only [List.nil_append, List.cons.injEq] at h2
          obtain ⟨rfl, _⟩ := h2
          exact absurd hm htp
        | cons w ws =>
          simp only [List.cons_append, List.cons.injEq] at h2
          obtain ⟨rfl, rfl⟩ := h2
          subst h1
          refine ⟨(a ++ s :: b) ++ ws, y, by simp, hm, ht, ?_⟩
          intro q hq
          apply hb
          rcases List.mem_append.1 hq with h | h
          · exact List.mem_append.2 (.inl h)
          · exact List.mem_append.2 (.inr (List.mem_cons_of_mem _ h))
      · cases c' with
        | nil =>
          simp only [List.nil_append, List.cons.injEq] at h2
          obtain ⟨rfl, _⟩ := h2
          exact absurd hm htp
        | cons w ws =>
          simp only [List.cons_append, List.cons.injEq] at h2
          obtain ⟨rfl, rfl⟩ := h2
          rw [h1]
          exact ⟨x, ws ++ c, by simp, hm, ht, hb⟩
  · rintro ⟨x, y, he, hm, ht, hb⟩
    have goal : a ++ s :: (b ++ t :: c) = (a ++ s :: b) ++ t :: c := by simp
    have e' : a ++ s :: (b ++ c) = (a ++ s :: b) ++ c := by simp
    rw [e'] at he
    rw [goal]
    rcases List.append_eq_append_iff.1 he with ⟨a', h1, h2⟩ | ⟨c', h1, h2⟩
    · -- decision inside c (after the deleted element)
      refine ⟨(a ++ s :: b) ++ t :: a', y, by rw [h2]; simp, hm, ht, ?_⟩
      intro q hq
      have hsn : ¬ (Matches s p ∧ Terminal s) := hb s (by rw [h1]; simp)
      rcases List.mem_append.1 hq with h | h
      · exact hb q (by rw [h1]; exact List.mem_append.2 (.inl h))
      · rcases List.mem_cons.1 h with rfl | h
        · exact fun hh => hsn ⟨hc hh.1, hs⟩
        · exact hb q (by rw [h1]; exact List.mem_append.2 (.inr h))
    · cases c' with
      | nil =>
        simp only [List.nil_append] at h2
        rw [List.append_nil] at h1
        refine ⟨(a ++ s :: b) ++ [t], y, by rw [← h2]; simp, hm, ht, ?_⟩
        intro q hq
        have hsn : ¬ (Matches s p ∧ Terminal s) := hb s (by rw [← h1]; simp)
        rcases List.mem_append.1 hq with h | h
        · exact hb q (by rw [← h1]; exact h)
        · rw [List.mem_singleton] at h; subst h
          exact fun hh => hsn ⟨hc hh.1, hs⟩
      | cons w ws =>
        simp only [List.cons_append, List.cons.injEq] at h2
        obtain ⟨rfl, rfl⟩ := h2
        rw [h1]
        exact ⟨x, ws ++ t :: c, by simp, hm, ht, hb⟩

/-! ### C17: flattening and the matched addresses -/

/-- the exclude list does not cover the whole include list -/
def NotFullyExcluded (inc exc : List Net) : Prop := inc = [] ∨ ∃ v x, Den inc v x ∧ ¬ Den exc v x

theorem flattenField_match {inc exc : List Net} {old r} (hi : ∀ n ∈ inc, WF n) (he : ∀ n ∈ exc, WF n)
    (hn : NotFullyExcluded inc exc) (h : flattenField inc exc old = .ok r) :
    (r.1 = [] ↔ inc = []) ∧ ∀ v x, AddrMatch r.1 exc v x ↔ AddrMatch inc exc v x := by
  rcases flattenField_ok hi he h with ⟨_, rfl⟩ | ⟨_, _, w, d1, d2⟩
  · exact ⟨Iff.rfl, fun _ _ => Iff.rfl⟩
  · have key : r.1 = [] ↔ inc = [] := by
      constructor
      · intro hr
        rcases hn with hn | ⟨v, x, hx⟩
        · exact hn
        · have := d2 v x hx; rw [hr] at this; simp at this
      · intro hin
        refine Classical.byContradiction fun hr => ?_
        obtain ⟨n, ns, hn⟩ := List.exists_cons_of_ne_nil hr
        have := d1 n.ver n.addr ⟨n, by rw [hn]; exact List.mem_cons_self .., mem_self⟩
        rw [hin] at this; simp at this
    refine ⟨key, fun v x => ?_⟩
    unfold AddrMatch
    rw [key]
    constructor
    · rintro ⟨h1 | h1, h2⟩
      · exact ⟨.inl h1, h2⟩
      · exact ⟨.inr (d1 v x h1), h2⟩
    · rintro ⟨h1 | h1, h2⟩
      · exact ⟨.inl h1, h2⟩
      · exact ⟨.inr (d2 v x ⟨h1, h2⟩), h2⟩

theorem flattenAll_matches {t o : Term} (w : AddrsWF t)
    (ns : NotFullyExcluded t.sourceAddress t.sourceAddressExclude)
    (nd : NotFullyExcluded t.destinationAddress t.destinationAddressExclude)
    (na : NotFullyExcluded t.address t.addressExclude) (h : flattenAll t = .ok o) (p : Packet) :
    Matches o p ↔ Matches t p := by
  obtain ⟨sa, da, ad, fs, fd, fa, rfl, hh⟩ := flattenAll_shape h
  rcases hh with ⟨_, _, _, rfl, rfl, rfl, _, _, _⟩ | ⟨_, h1, h2, h3⟩
  · exact Iff.rfl
  · obtain ⟨_, s2⟩ := flattenField_match w.source w.sourceExclude ns h1
    obtain ⟨_, d2⟩ := flattenField_match w.destination w.destinationExclude nd h2
    obtain ⟨a1, a2⟩ := flattenField_match w.address w.addressExclude na h3
    unfold Matches MatchAddrs
    simp only at *
    rw [s2, d2, a2, a2, a1]
    exact Iff.rfl

end Verif
