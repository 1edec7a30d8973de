import Verif.Lemmas.Port
import Verif.Lemmas.Parents

/-! `GetPortParents` and `GetServiceByProto`. -/

namespace Verif
namespace Naming
open Spec PyStr Port

theorem mkPPP_item {i v : Str} (h : IsItem i v) : mkPPP i = mkPPP v := by
  have h1 : strip (before '#' i) = v := itemTok_item h
  have h2 : strip (before '#' v) = v := itemTok_item ⟨h.1, .inl rfl⟩
  unfold mkPPP
  rw [h1, h2]

theorem splitSlash {p w p' w' : Str} (h : p ++ '/' :: w = p' ++ '/' :: w') (hp : '/' ∉ p) (hp' : '/' ∉ p') :
    p = p' ∧ w = w' := by
  have h1 := before_app (t := w) hp
  rw [h, before_app hp'] at h1
  have h2 := after_app (t := w) hp
  rw [h, after_app hp'] at h2
  exact ⟨h1.symm, h2.symm⟩

theorem portValue_slash {p : Str} {lo hi : Nat}
    (h : (Dec p lo ∧ hi = lo) ∨ ∃ a b, p = a ++ '-' :: b ∧ Dec a lo ∧ Dec b hi) : '/' ∉ p := by
  rcases h with ⟨h, _⟩ | ⟨a, b, rfl, h1, h2⟩
  · exact dec_noChar h not_digit_slash
  · simp only [List.mem_append, List.mem_cons, not_or]
    exact ⟨dec_noChar h1 not_digit_slash, by decide, dec_noChar h2 not_digit_slash⟩

theorem dec_unique {s : Str} {n m : Nat} (h : Dec s n) (h' : Dec s m) : n = m := by
  rw [← (numFrom_sound h.1).2, ← (numFrom_sound h'.1).2]

theorem portValue_unique {v : Str} {lo hi lo' hi' : Nat} {w w' : Str} (h : PortValue v lo hi w)
    (h' : PortValue v lo' hi' w') : lo = lo' ∧ hi = hi' ∧ w = w' := by
  obtain ⟨hw, p, rfl, hp⟩ := h
  obtain ⟨hw', p', e, hp'⟩ := h'
  obtain ⟨rfl, rfl⟩ := splitSlash e (portValue_slash hp) (portValue_slash hp')
  refine ⟨?_, ?_, rfl⟩ <;>
  · rcases hp with ⟨h, rfl⟩ | ⟨a, b, rfl, h1, h2⟩ <;> rcases hp' with ⟨h', rfl⟩ | ⟨a', b', e, h1', h2'⟩
    · exact dec_unique h h'
    · subst e
      exact absurd (show '-' ∈ a' ++ '-' :: b' by simp) (dec_noChar h not_digit_dash)
    · exact absurd (show '-' ∈ a ++ '-' :: b by simp) (dec_noChar h' not_digit_dash)
    · have hd := dec_noChar h1 not_digit_dash
      have hd' := dec_noChar h1' not_digit_dash
      have e1 := before_app (t := b) hd
      rw [e, before_app hd'] at e1
      have e2 := after_app (t := b) hd
      rw [e, after_app hd'] at e2
      subst e1 e2
      first | exact dec_unique h1 h1' | exact dec_unique h2 h2'

/-- One item against the given port. -/
theorem portItem_value {q w : Str} {n : Nat} (hq : Dec q n) (hw : Word w) (hws : '/' ∉ w) {i v : Str}
    (hi : IsItem i v) :
    ('/' ∉ v → portItem (mkPPP (q ++ '/' :: w)) i = .ok none) ∧
    (∀ lo hi w', PortValue v lo hi w' →
      portItem (mkPPP (q ++ '/' :: w)) i = .ok (some (decide (lo ≤ n ∧ n ≤ hi ∧ w' = w)))) := by
  have hqs : '/' ∉ q := dec_noChar hq not_digit_slash
  have hgw : Word (q ++ '/' :: w) := by
    refine ⟨by simp, fun c hc => ?_⟩
    rcases List.mem_append.1 hc with hc | hc
    · exact ⟨digit_notSpace (.inl ((dec_digits hq).2 c hc)), fun hh => by subst hh; exact dec_noChar hq not_digit_hash hc⟩
    · rcases List.mem_cons.1 hc with rfl | hc
      · exact ⟨by decide, by decide⟩
      · exact hw.2 c hc
  have hg := mkPPP_word hgw rfl hqs hws
  rw [hg]
  have hgi : pyInt q = some (n : Int) := pyInt_dec hq
  constructor
  · intro hv
    unfold portItem
    rw [mkPPP_item hi, mkPPP_ref hi.1 hv]
    rfl
  · rintro lo hi' w' ⟨hw', p, rfl, hp⟩
    have hps := portValue_slash hp
    unfold portItem
    rw [mkPPP_item hi, mkPPP_word hi.1 rfl hps hw']
    dsimp only
    rcases hp with ⟨hd, rfl⟩ | ⟨a, b, rfl, h1, h2⟩
    · have hne : p.isEmpty = false := by simpa using (dec_digits hd).1
      have hdash : p.contains '-' = false := by simpa using dec_noChar hd not_digit_dash
      have hsingle : PPP.isSinglePort (PPP.mk (p ++ '/' :: w') (some p) (some w') false)
          = true := by unfold PPP.isSinglePort; dsimp only; rw [hne, hdash]; rfl
      have hrange : PPP.isRange (PPP.mk (p ++ '/' :: w') (some p) (some w') false)
          = false := by unfold PPP.isRange; simp only [hdash, Bool.and_false]
      have heq : PPP.eq (PPP.mk (p ++ '/' :: w') (some p) (some w') false)
          (PPP.mk (q ++ '/' :: w) (some q) (some w) false) =
          .ok (decide (hi' ≤ n ∧ n ≤ hi' ∧ w' = w)) := by
        unfold PPP.eq
        rw [hsingle]
        unfold PPP.portInt
        simp only [if_true, Option.bind_some, hgi, pyInt_dec hd]
        congr 1
        rw [Bool.eq_iff_iff, Bool.and_eq_true, decide_eq_true_eq, beq_iff_eq, beq_iff_eq, Option.some.injEq]
        constructor
        · rintro ⟨e, rfl⟩; exact ⟨by omega, by omega, rfl⟩
        · rintro ⟨_, _, rfl⟩; exact ⟨by omega, rfl⟩
      rw [hsingle, hrange, heq]
      simp only [if_true, bind, Except.bind, Bool.false_eq_true, if_false]
      cases decide (hi' ≤ n ∧ n ≤ hi' ∧ w' = w) <;> rfl
    · have hdash : (a ++ '-' :: b).contains '-' = true := by simp
      have hne : (a ++ '-' :: b).isEmpty = false := by simp
      have hsp : splitOn '-' (a ++ '-' :: b) = [a, b] := by
        rw [splitOn_app (dec_noChar h1 not_digit_dash), splitOn_none (dec_noChar h2 not_digit_dash)]
      have hsingle : PPP.isSinglePort (PPP.mk ((a ++ '-' :: b) ++ '/' :: w') (some (a ++ '-' :: b)) (some w') false) = false := by unfold PPP.isSinglePort; simp
      have hrange : PPP.isRange (PPP.mk ((a ++ '-' :: b) ++ '/' :: w') (some (a ++ '-' :: b)) (some w') false) = true := by unfold PPP.isRange; simp
      have hcont : PPP.contains (PPP.mk ((a ++ '-' :: b) ++ '/' :: w') (some (a ++ '-' :: b)) (some w') false)
          (PPP.mk (q ++ '/' :: w) (some q) (some w) false) =
          .ok (decide (lo ≤ n ∧ n ≤ hi' ∧ w' = w)) := by
        unfold PPP.contains PPP.start PPP.end PPP.portInt
        simp only [hdash, if_true, hsp, List.getD_cons_zero, List.getD_cons_succ, pyInt_dec h1, pyInt_dec h2,
          Option.bind_some, hgi]
        rcases Classical.em (lo ≤ n) with hlo | hlo
        · rw [if_pos (by omega)]
          congr 1
          rw [Bool.eq_iff_iff, Bool.and_eq_true, decide_eq_true_eq, decide_eq_true_eq, beq_iff_eq, Option.some.injEq]
          constructor
          · rintro ⟨e, rfl⟩; exact ⟨hlo, by omega, rfl⟩
          · rintro ⟨_, _, rfl⟩; exact ⟨by omega, rfl⟩
        · rw [if_neg (by omega)]
          congr 1
          rw [eq_comm, decide_eq_false_iff_not]
          rintro ⟨h, _⟩; exact hlo h
      rw [hsingle, hrange, hcont]
      simp only [if_true, bind, Except.bind, Bool.false_eq_true, if_false]
      cases decide (lo ≤ n ∧ n ≤ hi' ∧ w' = w) <;> rfl

/-- All values of a list of items. -/
theorem portItems_spec {q w : Str} {n : Nat} (hq : Dec q n) (hw : Word w) (hws : '/' ∉ w) :
    ∀ (is : List Str), (∀ i ∈ is, ∃ v, IsItem i v ∧ ('/' ∈ v → ∃ lo hi w, PortValue v lo hi w)) →
    ∃ r, portItems (mkPPP (q ++ '/' :: w)) is = .ok r ∧
      (r.1 = true ↔ ∃ i ∈ is, ∃ v, IsItem i v ∧ Covers v n w) ∧
      (r.2 = true ↔ ∃ i ∈ is, ∃ v, IsItem i v ∧ '/' ∉ v)
  | [], _ => ⟨(false, false), rfl, by simp, by simp⟩
  | i :: is, h => by
    obtain ⟨r, hr, h1, h2⟩ := portItems_spec hq hw hws is (fun j hj => h j (List.mem_cons_of_mem _ hj))
    obtain ⟨v, hv, hval⟩ := h i (List.mem_cons_self ..)
    obtain ⟨c1, c2⟩ := portItem_value hq hw hws hv
    rw [portItems]
    rcases Classical.em ('/' ∈ v) with hs | hs
    · obtain ⟨lo, hi, w', hp⟩ := hval hs
      rw [c2 lo hi w' hp, hr]
      refine ⟨_, rfl, ?_, ?_⟩
      · simp only [Bool.or_eq_true, h1, List.mem_cons, exists_eq_or_imp]
        refine or_congr ?_ Iff.rfl
        rw [beq_iff_eq, Option.some.injEq, decide_eq_true_eq]
        constructor
        · rintro ⟨a, b, rfl⟩; exact ⟨v, hv, lo, hi, hp, a, b⟩
        · rintro ⟨v', hv', lo', hi', hp', a, b⟩
          rw [← isItem_unique hv hv'] at hp'
          obtain ⟨rfl, rfl, rfl⟩ := portValue_unique hp hp'
          exact ⟨a, b, rfl⟩
      · simp only [Bool.or_eq_true, h2, List.mem_cons, exists_eq_or_imp]
        refine or_congr ?_ Iff.rfl
        constructor
        · intro hh; cases hh
        · rintro ⟨v', hv', hn⟩
          rw [← isItem_unique hv hv'] at hn
          exact absurd hs hn
    · rw [c1 hs, hr]
      refine ⟨_, rfl, ?_, ?_⟩
      · simp only [Bool.or_eq_true, h1, List.mem_cons, exists_eq_or_imp]
        refine or_congr ?_ Iff.rfl
        constructor
        · intro hh; cases hh
        · rintro ⟨v', hv', lo, hi, ⟨_, p, rfl, _⟩, _⟩
          rw [isItem_unique hv hv'] at hs
          exact absurd (by simp) hs
      · simp only [Bool.or_eq_true, h2, List.mem_cons, exists_eq_or_imp]
        refine or_congr ?_ Iff.rfl
        exact ⟨fun _ => ⟨v, hv, hs⟩, fun _ => rfl⟩

/-- What `GetPortParents` needs of one entry. -/
def EntryOk (e : Str × List Str) : Prop :=
  ∀ i ∈ e.2, ∃ v, IsItem i v ∧ ('/' ∈ v → ∃ lo hi w, PortValue v lo hi w)

theorem portDirect_spec {q w : Str} {n : Nat} (hq : Dec q n) (hw : Word w) (hws : '/' ∉ w) :
    ∀ (d : Defs), (∀ e ∈ d, EntryOk e) →
    ∃ r, portDirect (mkPPP (q ++ '/' :: w)) d = .ok r ∧
      (∀ x, x ∈ r.1 ↔ ∃ e ∈ d, e.1 = x ∧ ∃ i ∈ e.2, ∃ v, IsItem i v ∧ Covers v n w) ∧
      (∀ x, x ∈ r.2 ↔ ∃ e ∈ d, e.1 = x ∧ ∃ i ∈ e.2, ∃ v, IsItem i v ∧ '/' ∉ v)
  | [], _ => ⟨([], []), rfl, by simp, by simp⟩
  | e :: es, h => by
    obtain ⟨r, hr, h1, h2⟩ := portDirect_spec hq hw hws es (fun x hx => h x (List.mem_cons_of_mem _ hx))
    obtain ⟨a, ha, a1, a2⟩ := portItems_spec hq hw hws e.2 (h e (List.mem_cons_self ..))
    rw [portDirect, ha, hr]
    refine ⟨_, rfl, ?_, ?_⟩
    · intro x
      simp only [List.mem_append, h1, List.mem_cons, exists_eq_or_imp]
      refine or_congr ?_ Iff.rfl
      rw [← a1]
      cases a.1 <;> simp [eq_comm]
    · intro x
      simp only [List.mem_append, h2, List.mem_cons, exists_eq_or_imp]
      refine or_congr ?_ Iff.rfl
      rw [← a2]
      cases a.2 <;> simp [eq_comm]

theorem svcOf_word {svcs : Defs} {t v : Str} (h : SvcOf svcs t v) : Word v := by
  obtain ⟨s, _, ⟨_, _, _, _, hv⟩, _⟩ := h
  exact hv.1

theorem portNested_spec {svcs : Defs} {q w : Str} {n : Nat} (hq : Dec q n) (hw : Word w) (hws : '/' ∉ w)
    (hsv : ServiceValues svcs) :
    ∀ (bps : List Str), (∀ b ∈ bps, ∃ l, getService svcs b = .ok l ∧ ∀ v, v ∈ l ↔ SvcOf svcs b v) →
    ∃ r, portNested svcs (mkPPP (q ++ '/' :: w)) bps = .ok r ∧
      ∀ x, x ∈ r ↔ x ∈ bps ∧ ∃ v, SvcOf svcs x v ∧ Covers v n w
  | [], _ => ⟨[], rfl, by simp⟩
  | b :: bps, h => by
    obtain ⟨r, hr, h1⟩ := portNested_spec hq hw hws hsv bps (fun x hx => h x (List.mem_cons_of_mem _ hx))
    obtain ⟨l, hl, hm⟩ := h b (List.mem_cons_self ..)
    obtain ⟨a, ha, a1, _⟩ := portItems_spec hq hw hws l (by
      intro i hi
      have hs := (hm i).1 hi
      refine ⟨i, ⟨svcOf_word hs, .inl rfl⟩, fun _ => ?_⟩
      obtain ⟨s, _, hv, hsl⟩ := hs
      exact hsv s i hv hsl)
    rw [portNested, hl]
    simp only [bind, Except.bind, ha, hr]
    refine ⟨_, rfl, fun x => ?_⟩
    have key : a.1 = true ↔ ∃ v, SvcOf svcs b v ∧ Covers v n w := by
      rw [a1]
      constructor
      · rintro ⟨i, hi, v, hv, hc⟩
        have hs := (hm i).1 hi
        have : v = i := isItem_unique hv ⟨svcOf_word hs, .inl rfl⟩
        subst this
        exact ⟨v, hs, hc⟩
      · rintro ⟨v, hs, hc⟩
        exact ⟨v, (hm v).2 hs, v, ⟨svcOf_word hs, .inl rfl⟩, hc⟩
    simp only [List.mem_append, h1, List.mem_cons]
    cases hb : a.1 with
    | true =>
      simp only [if_true, List.mem_singleton]
      constructor
      · rintro (rfl | ⟨hx, hv⟩)
        · exact ⟨.inl rfl, key.1 hb⟩
        · exact ⟨.inr hx, hv⟩
      · rintro ⟨rfl | hx, hv⟩
        · exact .inl rfl
        · exact .inr ⟨hx, hv⟩
    | false =>
      simp only [Bool.false_eq_true, if_false, List.not_mem_nil, false_or]
      constructor
      · rintro ⟨hx, hv⟩; exact ⟨.inr hx, hv⟩
      · rintro ⟨rfl | hx, hv⟩
        · rw [key.2 hv] at hb; cases hb
        · exact ⟨hx, hv⟩

theorem covers_slash {v w : Str} {n : Nat} (h : Covers v n w) : '/' ∈ v := by
  obtain ⟨_, _, ⟨_, p, rfl, _⟩, _⟩ := h
  simp

/-- `GetPortParents`. -/
theorem getPortParents_spec {svcs : Defs} (hi : ItemsOk svcs) (hn : (svcs.map Prod.fst).Nodup)
    (hsv : ServiceValues svcs)
    (hres : ∀ t ∈ svcs.map Prod.fst, ∃ l, getService svcs t = .ok l ∧ ∀ v, v ∈ l ↔ SvcOf svcs t v)
    {q w : Str} {n : Nat} (hq : Dec q n) (hw : Word w) (hws : '/' ∉ w) :
    ((∃ t v, SvcOf svcs t v ∧ Covers v n w) → ∃ l, getPortParents svcs q w = .ok l ∧
      l.Pairwise (fun a b => strLt a b = true) ∧ ∀ t, t ∈ l ↔ ∃ v, SvcOf svcs t v ∧ Covers v n w) ∧
    ((¬ ∃ t v, SvcOf svcs t v ∧ Covers v n w) →
      getPortParents svcs q w = .error (.raised "UndefinedPortError")) := by
  have hent : ∀ e ∈ svcs, EntryOk e := by
    intro e he i hii
    obtain ⟨v, hv⟩ := hi e he i hii
    exact ⟨v, hv, fun hs => hsv e.1 v ⟨e.2, i, lookup_of_mem hn he, hii, hv⟩ hs⟩
  obtain ⟨r, hr, h1, h2⟩ := portDirect_spec hq hw hws svcs hent
  obtain ⟨m, hm, h3⟩ := portNested_spec hq hw hws hsv r.2 (fun b hb => by
    obtain ⟨e, he, rfl, _⟩ := (h2 b).1 hb
    exact hres e.1 (List.mem_map.2 ⟨e, he, rfl⟩))
  have hall : ∀ t, t ∈ r.1 ++ m ↔ ∃ v, SvcOf svcs t v ∧ Covers v n w := by
    intro t
    rw [List.mem_append, h1, h3, h2]
    constructor
    · rintro (⟨e, he, rfl, i, hii, v, hv, hc⟩ | ⟨_, h⟩)
      · exact ⟨v, ⟨e.1, .refl, ⟨e.2, i, lookup_of_mem hn he, hii, hv⟩, covers_slash hc⟩, hc⟩
      · exact h
    · rintro ⟨v, ⟨s, hreach, hv, hsl⟩, hc⟩
      rcases reach_cases hreach with rfl | ⟨u, ⟨items, i, hl, hii, hu⟩, hns, _⟩
      · obtain ⟨items, i, hl, hii, hv⟩ := hv
        exact .inl ⟨_, lookup_mem hl, rfl, i, hii, v, hv, hc⟩
      · exact .inr ⟨⟨_, lookup_mem hl, rfl, i, hii, u, hu, hns⟩, v, ⟨s, hreach, hv, hsl⟩, hc⟩
  unfold getPortParents
  dsimp only
  rw [hr]
  simp only [bind, Except.bind, hm]
  constructor
  · rintro ⟨t, v, hh⟩
    have hne : (r.1 ++ m).isEmpty = false := by
      cases hx : r.1 ++ m with
      | nil => exact absurd ((hall t).2 ⟨v, hh⟩) (by rw [hx]; simp)
      | cons => rfl
    rw [hne]
    refine ⟨_, rfl, sortedSet_sorted _, fun t => ?_⟩
    rw [mem_sortedSet, hall]
  · intro hno
    have he : (r.1 ++ m).isEmpty = true := by
      cases hx : r.1 ++ m with
      | nil => rfl
      | cons t ts => exact absurd ⟨t, (hall t).1 (by rw [hx]; simp)⟩ hno
    rw [he]
    rfl

/-! ### GetServiceByProto -/

theorem splitOn_head (c : Char) : ∀ (s : Str), ∃ w ws, splitOn c s = w :: ws
  | [] => ⟨[], [], rfl⟩
  | d :: ds => by
    rw [splitOn]
    split
    · exact ⟨_, _, rfl⟩
    · split
      · exact ⟨_, _, rfl⟩
      · exact ⟨_, _, rfl⟩

theorem splitOn_cons_app {c : Char} {p t : Str} (hp : c ∉ p) : splitOn c (p ++ c :: t) = p :: splitOn c t :=
  splitOn_app hp

theorem before_split (c : Char) (s : Str) (h : c ∈ s) : ∃ t, s = before c s ++ c :: t := by
  induction s with
  | nil => cases h
  | cons d ds ih =>
    rcases Classical.em (d = c) with rfl | hd
    · exact ⟨ds, by simp [before]⟩
    · rcases List.mem_cons.1 h with rfl | h
      · exact absurd rfl hd
      · obtain ⟨t, ht⟩ := ih h
        refine ⟨t, ?_⟩
        have : before c (d :: ds) = d :: before c ds := by
          unfold before
          rw [List.takeWhile_cons, if_pos (by simpa using hd)]
        rw [this, List.cons_append, ← ht]

theorem splitOn_proto {v p w : Str} : ('/' ∈ v ∧ (splitOn '/' v).getD 0 [] = p ∧ (splitOn '/' v).getD 1 [] = w) ↔
    ProtoValue v p w := by
  constructor
  · rintro ⟨hs, h0, h1⟩
    obtain ⟨t, ht⟩ := before_split '/' v hs
    rw [ht, splitOn_app before_noHash'] at h0 h1
    simp only [List.getD_cons_zero, List.getD_cons_succ] at h0 h1
    subst h0
    rcases Classical.em ('/' ∈ t) with htt | htt
    · obtain ⟨r, hr⟩ := before_split '/' t htt
      rw [hr, splitOn_app before_noHash'] at h1
      simp only [List.getD_cons_zero] at h1
      subst h1
      refine ⟨before_noHash', before_noHash', '/' :: r, ?_, .inr ⟨r, rfl⟩⟩
      rw [← hr]; exact ht
    · rw [splitOn_none htt] at h1
      simp only [List.getD_cons_zero] at h1
      subst h1
      exact ⟨before_noHash', htt, [], by rw [List.append_nil]; exact ht, .inl rfl⟩
  · rintro ⟨hp, hw, r, rfl, hr⟩
    refine ⟨by simp, ?_⟩
    rw [splitOn_app hp]
    rcases hr with rfl | ⟨r', rfl⟩
    · rw [List.append_nil, splitOn_none hw]; exact ⟨rfl, rfl⟩
    · rw [splitOn_app hw]; exact ⟨rfl, rfl⟩
where
  before_noHash' {c : Char} {s : Str} : c ∉ before c s := by
    intro h
    have := mem_takeWhile h
    simp at this

end Naming
end Verif
