import Verif.Spec.Aclgenerator
import Verif.Lemmas.Ports
import Verif.Lemmas.Sort
import Verif.Lemmas.Translate

/-!
Property theorems C32-C35, C54, C55: capirca/lib/aclgenerator.py.
-/

namespace Verif.Props
open Verif Verif.Spec Verif.Policy Verif.Aclgenerator

/-! ### C32 -/

/-- The term has the option `established` (or another option starting with it). -/
def HasEstablished (t : Term) : Prop := ∃ o ∈ t.option, ∃ r, o.toList = "established".toList ++ r

/-- The protocol is one of the term's, or the default of the generator if the term has none. -/
def TermProto (c : HighPorts) (t : Term) (p : String) : Prop :=
  p ∈ t.protocol ∨ (t.protocol = [] ∧ p = c.defaultProtocol)

theorem mem_protocolsOf {c : HighPorts} {t : Term} {p : String} : p ∈ protocolsOf c t ↔ TermProto c t p := by
  unfold protocolsOf TermProto
  cases t.protocol <;> simp

theorem startsWith_iff {p s : String} : startsWith p s = true ↔ ∃ r, s.toList = p.toList ++ r := by
  unfold startsWith
  rw [List.isPrefixOf_iff_prefix]
  constructor
  · rintro ⟨r, h⟩; exact ⟨r, h.symm⟩
  · rintro ⟨r, h⟩; exact ⟨r, h.symm⟩

theorem hasEst_iff {t : Term} : (t.option.any fun o => startsWith "established" o) = true ↔ HasEstablished t := by
  rw [List.any_eq_true]
  exact exists_congr fun o => and_congr_right fun _ => startsWith_iff

/-- C32: for a supported family and no refused protocol, a term without `established` comes back
unchanged. -/
theorem C32_unchanged {c : HighPorts} {t : Term} {af : String} (st : Bool) (haf : af ∈ c.supportedAf)
    (hb : ∀ l, c.blacklist.lookup af = some l → ∀ p ∈ l, ¬ TermProto c t p) (h : ¬ HasEstablished t) :
    fixHighPorts c t af st = .ok t := by
  unfold fixHighPorts
  have h1 : c.supportedAf.contains af = true := List.contains_iff_mem.2 haf
  have h2 : (((c.blacklist.lookup af).getD []).any fun p => (protocolsOf c t).contains p) = false := by
    rw [← Bool.not_eq_true, List.any_eq_true]
    rintro ⟨p, hp, hc⟩
    cases hl : c.blacklist.lookup af with
    | none => rw [hl] at hp; cases hp
    | some l => rw [hl] at hp; exact hb l hl p hp (mem_protocolsOf.1 (List.contains_iff_mem.1 hc))
  rw [h1, h2]
  simp only [Bool.not_true, Bool.false_eq_true, if_false]
  unfold fixEstablished
  rw [if_neg (fun hh => h (hasEst_iff.1 hh))]

/-- C32: the outcome for a term with `established`. If all its protocols are tcp or udp, only the
destination ports change; they become the old set, plus 1024-65535 unless the platform is stateful. Any
other protocol is an `EstablishedError` unless the platform is stateful, which leaves the term alone. -/
theorem C32_established {c : HighPorts} {t : Term} {af : String} (st : Bool) (haf : af ∈ c.supportedAf)
    (hb : ∀ l, c.blacklist.lookup af = some l → ∀ p ∈ l, ¬ TermProto c t p) (h : HasEstablished t)
    (hw : PWF t.destinationPort) :
    ((∀ p, TermProto c t p → p = "tcp" ∨ p = "udp") →
      ∃ ports, fixHighPorts c t af st = .ok { t with destinationPort := ports } ∧
        ∀ x, PMem ports x ↔ PMem t.destinationPort x ∨ (st = false ∧ 1024 ≤ x ∧ x ≤ 65535)) ∧
    ((∃ p, TermProto c t p ∧ p ≠ "tcp" ∧ p ≠ "udp") →
      fixHighPorts c t af st = if st then .ok t else .error (.raised "EstablishedError")) := by
  have e : fixHighPorts c t af st = fixEstablished c t st := by
    unfold fixHighPorts
    have h1 : c.supportedAf.contains af = true := List.contains_iff_mem.2 haf
    have h2 : (((c.blacklist.lookup af).getD []).any fun p => (protocolsOf c t).contains p) = false := by
      rw [← Bool.not_eq_true, List.any_eq_true]
      rintro ⟨p, hp, hc⟩
      cases hl : c.blacklist.lookup af with
      | none => rw [hl] at hp; cases hp
      | some l => rw [hl] at hp; exact hb l hl p hp (mem_protocolsOf.1 (List.contains_iff_mem.1 hc))
    rw [h1, h2]
    rfl
  rw [e]
  unfold fixEstablished
  rw [if_pos (hasEst_iff.2 h)]
  have hall : ((protocolsOf c t).all fun p => p == "tcp" || p == "udp") = true ↔
      ∀ p, TermProto c t p → p = "tcp" ∨ p = "udp" := by
    rw [List.all_eq_true]
    simp only [Bool.or_eq_true, beq_iff_eq, mem_protocolsOf]
  constructor
  · intro hp
    rw [if_pos (hall.2 hp)]
    refine ⟨_, rfl, fun x => ?_⟩
    cases st with
    | true =>
      simp only [if_true, Bool.true_eq_false, false_and, or_false]
      exact (collapsePortList_spec _ hw).2.1 x
    | false =>
      simp only [Bool.false_eq_true, if_false, true_and]
      have hw' : PWF (t.destinationPort ++ [(1024, 65535)]) := by
        intro r hr
        rcases List.mem_append.1 hr with hr | hr
        · exact hw r hr
        · rw [List.mem_singleton] at hr; subst hr; decide
      rw [(collapsePortList_spec _ hw').2.1 x]
      constructor
      · rintro ⟨r, hr, h1, h2⟩
        rcases List.mem_append.1 hr with hr | hr
        · exact .inl ⟨r, hr, h1, h2⟩
        · rw [List.mem_singleton] at hr; subst hr; exact .inr ⟨h1, h2⟩
      · rintro (⟨r, hr, h1, h2⟩ | ⟨h1, h2⟩)
        · exact ⟨r, List.mem_append_left _ hr, h1, h2⟩
        · exact ⟨(1024, 65535), List.mem_append_right _ (List.mem_singleton.2 rfl), h1, h2⟩
  · rintro ⟨p, hp, h1, h2⟩
    rw [if_neg (fun hh => (hall.1 hh p hp).elim h1 h2)]

/-- C32: the family errors come first: an unsupported family, or a protocol the platform refuses for it. -/
theorem C32_family (c : HighPorts) (t : Term) (af : String) (st : Bool) :
    (fixHighPorts c t af st = .error (.raised "UnsupportedAFError") ↔ af ∉ c.supportedAf) ∧
    (fixHighPorts c t af st = .error (.raised "UnsupportedFilterError") ↔
      af ∈ c.supportedAf ∧ ∃ l, c.blacklist.lookup af = some l ∧ ∃ p ∈ l, TermProto c t p) := by
  have hne : ∀ s, s ≠ "EstablishedError" → fixEstablished c t st ≠ .error (.raised s) := by
    intro s hs
    unfold fixEstablished
    split
    · split
      · simp
      · split
        · simp
        · simpa using Ne.symm hs
    · simp
  unfold fixHighPorts
  rcases Classical.em (af ∈ c.supportedAf) with haf | haf
  · rw [List.contains_iff_mem.2 haf]
    simp only [Bool.not_true, Bool.false_eq_true, if_false]
    have hb : (((c.blacklist.lookup af).getD []).any fun p => (protocolsOf c t).contains p) = true ↔
        ∃ l, c.blacklist.lookup af = some l ∧ ∃ p ∈ l, TermProto c t p := by
      rw [List.any_eq_true]
      constructor
      · rintro ⟨p, hp, hc⟩
        cases hl : c.blacklist.lookup af with
        | none => rw [hl] at hp; cases hp
        | some l => rw [hl] at hp; exact ⟨l, rfl, p, hp, mem_protocolsOf.1 (List.contains_iff_mem.1 hc)⟩
      · rintro ⟨l, hl, p, hp, hc⟩
        rw [hl]
        exact ⟨p, hp, List.contains_iff_mem.2 (mem_protocolsOf.2 hc)⟩
    split
    next h =>
      refine ⟨⟨fun hh => by simp at hh, fun hh => absurd haf hh⟩, ⟨fun _ => ⟨haf, hb.1 h⟩, fun _ => rfl⟩⟩
    next h =>
      exact ⟨⟨fun hh => absurd hh (hne _ (by decide)), fun hh => absurd haf hh⟩,
        ⟨fun hh => absurd hh (hne _ (by decide)), fun hh => absurd (hb.2 hh.2) h⟩⟩
  · have : c.supportedAf.contains af = false := by
      rw [← Bool.not_eq_true, List.contains_iff_mem]; exact haf
    rw [this]
    simp only [Bool.not_false, if_true, true_iff, Except.error.injEq, Err.raised.injEq]
    exact ⟨haf, ⟨fun h => absurd h (by decide), fun h => absurd h.1 haf⟩⟩

example : fixHighPorts {} { option := ["established"], protocol := ["tcp"], destinationPort := [(80, 80), (1000, 1100)] }
    "inet" false = .ok { option := ["established"], protocol := ["tcp"], destinationPort := [(80, 80), (1000, 65535)] } := by
  rfl

example : fixHighPorts {} { option := ["established"], protocol := ["tcp", "icmp"] } "inet" false =
    .error (.raised "EstablishedError") := by rfl

/-! ### C33 -/

theorem infix_split {w s : Str} : w <:+: s ↔ ∃ p q, s = p ++ (w ++ q) := by
  constructor
  · rintro ⟨p, q, h⟩; exact ⟨p, q, by rw [← h, List.append_assoc]⟩
  · rintro ⟨p, q, h⟩; exact ⟨p, q, by rw [h, List.append_assoc]⟩

/-- the substitution loop replaces the leftmost non-overlapping occurrences -/
theorem subAll_replaced {w a : Str} (hw : w ≠ []) : ∀ (n : Nat) (s : Str), s.length ≤ n → Replaced w a s (subAll w a n s)
  | 0, [], _ => .none fun h => hw (List.infix_nil.1 h)
  | 0, _ :: _, h => absurd h (by simp)
  | n + 1, [], _ => .none fun h => hw (List.infix_nil.1 h)
  | n + 1, c :: cs, hl => by
    rw [subAll]
    split
    next hp =>
      obtain ⟨r, hr⟩ := List.isPrefixOf_iff_prefix.1 hp
      have hlen : ((c :: cs).drop w.length).length ≤ n := by
        have : 0 < w.length := List.length_pos_iff.2 hw
        rw [List.length_drop]; simp at hl ⊢; omega
      have hd : (c :: cs).drop w.length = r := by rw [← hr]; simp
      rw [hd] at hlen ⊢
      exact .some (pre := []) (by rw [List.nil_append, hr]) (fun p q _ => Nat.zero_le _) (subAll_replaced hw n r hlen)
    next hp =>
      have hnp : ∀ q, c :: cs ≠ w ++ q := fun q h => hp (List.isPrefixOf_iff_prefix.2 ⟨q, h.symm⟩)
      have ih := subAll_replaced (a := a) hw n cs (by simpa using hl)
      revert ih
      generalize subAll w a n cs = z
      intro ih
      cases ih with
      | none h =>
        refine .none fun hh => h ?_
        obtain ⟨p, q, hpq⟩ := infix_split.1 hh
        cases p with
        | nil => exact absurd hpq (hnp q)
        | cons x xs => cases hpq; exact infix_split.2 ⟨xs, q, rfl⟩
      | @some _ pre rest t h1 h2 h3 =>
        refine .some (pre := c :: pre) (by rw [h1]; rfl) (fun p q hpq => ?_) h3
        cases p with
        | nil => exact absurd hpq (hnp q)
        | cons x xs =>
          simp only [List.cons_append, List.cons.injEq] at hpq
          simpa using h2 xs q hpq.2

theorem abbreviate_spec {limit : Nat} : ∀ {tbl : List (Str × Str)}, (∀ e ∈ tbl, e.1 ≠ []) → ∀ (s : Str),
    (∃ k r, k < tbl.length ∧ abbreviate limit tbl s = .inl r ∧ ReplacedAll (tbl.take k) s r ∧ r.length ≤ limit ∧
      ∀ j < k, ∃ m, ReplacedAll (tbl.take j) s m ∧ limit < m.length) ∨
    (∃ r, abbreviate limit tbl s = .inr r ∧ ReplacedAll tbl s r ∧
      ∀ j < tbl.length, ∃ m, ReplacedAll (tbl.take j) s m ∧ limit < m.length)
  | [], _, s => .inr ⟨s, rfl, .nil, fun j hj => absurd hj (by simp)⟩
  | (w, a) :: tbl, hne, s => by
    rw [abbreviate]
    split
    next h => exact .inl ⟨0, s, by simp, rfl, .nil, h, fun j hj => absurd hj (by omega)⟩
    next h =>
      have hr := subAll_replaced (a := a) (hne (w, a) (List.mem_cons_self ..)) s.length s (Nat.le_refl _)
      have pre : ∀ k, (∀ j < k, ∃ m, ReplacedAll (tbl.take j) (subAll w a s.length s) m ∧ limit < m.length) →
          ∀ j < k + 1, ∃ m, ReplacedAll (((w, a) :: tbl).take j) s m ∧ limit < m.length := by
        intro k hk j hj
        cases j with
        | zero => exact ⟨s, .nil, by omega⟩
        | succ j =>
          obtain ⟨m, h1, h2⟩ := hk j (by omega)
          exact ⟨m, .cons hr h1, h2⟩
      rcases abbreviate_spec (limit := limit) (fun e he => hne e (List.mem_cons_of_mem _ he)) (subAll w a s.length s) with
        ⟨k, r, h1, h2, h3, h4, h5⟩ | ⟨r, h2, h3, h5⟩
      · exact .inl ⟨k + 1, r, by simpa using h1, h2, .cons hr h3, h4, pre k h5⟩
      · exact .inr ⟨r, h2, .cons hr h3, pre _ h5⟩

theorem truncateName_ok {limit : Nat} {tr : Bool} {s : Str} :
    truncateName limit tr s = if tr ∨ s.length ≤ limit then .ok (s.take limit) else .error (.raised "TermNameTooLongError") := by
  unfold truncateName
  cases tr with
  | true => simp [List.length_take, Nat.min_le_left]
  | false =>
    simp only [Bool.false_eq_true, if_false, false_or]
    split
    next h => rw [List.take_of_length_le h]
    · rfl

/-- C33: a returned name is within the limit. -/
theorem C33_bounded {tbl : List (Str × Str)} {limit : Nat} {name r : Str} {ab tr : Bool}
    (h : fixTermLength tbl limit name ab tr = .ok r) : r.length ≤ limit := by
  have tn : ∀ {s}, truncateName limit tr s = .ok r → r.length ≤ limit := by
    intro s h
    rw [truncateName_ok] at h
    split at h
    · cases h; rw [List.length_take]; exact Nat.min_le_left ..
    · cases h
  unfold fixTermLength at h
  split at h
  · split at h
    next s hs =>
      cases h
      revert hs
      generalize name = n
      induction tbl generalizing n with
      | nil => intro hs; cases hs
      | cons e tbl ih =>
        intro hs
        obtain ⟨w, a⟩ := e
        rw [abbreviate] at hs
        split at hs
        next hl => cases hs; exact hl
        · exact ih _ hs
    · exact tn h
  · exact tn h

/-- C33: a name within the limit is returned unchanged. -/
theorem C33_fits {tbl : List (Str × Str)} {limit : Nat} {name : Str} (h : name.length ≤ limit) (ab tr : Bool) :
    fixTermLength tbl limit name ab tr = .ok name := by
  have tn : truncateName limit tr name = .ok name := by
    rw [truncateName_ok, if_pos (.inr h), List.take_of_length_le h]
  unfold fixTermLength
  split
  · cases tbl with
    | nil => rw [abbreviate]; exact tn
    | cons e tbl => rw [abbreviate, if_pos h]
  · exact tn

/-- C33: the only error is `TermNameTooLongError`, raised only without truncation. -/
theorem C33_error {tbl : List (Str × Str)} {limit : Nat} {name : Str} {ab tr : Bool} {e : Err}
    (h : fixTermLength tbl limit name ab tr = .error e) :
    e = .raised "TermNameTooLongError" ∧ tr = false ∧ limit < name.length := by
  have hl : limit < name.length := by
    rcases Nat.lt_or_ge limit name.length with hl | hl
    · exact hl
    · rw [C33_fits hl] at h; cases h
  have tn : ∀ {s}, truncateName limit tr s = .error e → e = .raised "TermNameTooLongError" ∧ tr = false := by
    intro s h
    rw [truncateName_ok] at h
    split at h
    · cases h
    next hn => cases h; exact ⟨rfl, by simpa using fun h => hn (.inl h)⟩
  unfold fixTermLength at h
  split at h
  · split at h
    · cases h
    · exact ⟨(tn h).1, (tn h).2, hl⟩
  · exact ⟨(tn h).1, (tn h).2, hl⟩

/-- C33: exact result without abbreviation: the name cut to the limit if that is allowed. -/
theorem C33_truncate (tbl : List (Str × Str)) (limit : Nat) (name : Str) (tr : Bool) :
    fixTermLength tbl limit name false tr =
      if tr ∨ name.length ≤ limit then .ok (name.take limit) else .error (.raised "TermNameTooLongError") := by
  unfold fixTermLength
  rw [if_neg (by simp), truncateName_ok]

/-- C33: exact result with abbreviation: the table is applied in order until the name fits, and no
further; if it never fits, the fully abbreviated name is cut if that is allowed. -/
theorem C33_abbreviate {tbl : List (Str × Str)} (hne : ∀ e ∈ tbl, e.1 ≠ []) (limit : Nat) (name : Str) (tr : Bool) :
    ∃ k r, k ≤ tbl.length ∧ ReplacedAll (tbl.take k) name r ∧
      (∀ j < k, ∃ m, ReplacedAll (tbl.take j) name m ∧ limit < m.length) ∧ (r.length ≤ limit ∨ k = tbl.length) ∧
      fixTermLength tbl limit name true tr =
        if tr ∨ r.length ≤ limit then .ok (r.take limit) else .error (.raised "TermNameTooLongError") := by
  rcases abbreviate_spec (limit := limit) hne name with ⟨k, r, h1, h2, h3, h4, h5⟩ | ⟨r, h2, h3, h5⟩
  · refine ⟨k, r, by omega, h3, h5, .inl h4, ?_⟩
    unfold fixTermLength
    rw [if_pos rfl, h2, if_pos (.inr h4), List.take_of_length_le h4]
  · refine ⟨tbl.length, r, Nat.le_refl _, by rw [List.take_length]; exact h3, h5, .inr rfl, ?_⟩
    unfold fixTermLength
    rw [if_pos rfl, h2]
    exact truncateName_ok

example : fixTermLength abbreviations 24 "accept-customer-server-requests".toList true false =
    .ok "accept-CUST-SRV-requests".toList := by decide

example : ∀ e ∈ abbreviations, e.1 ≠ [] := by decide

/-! ### C34 -/

theorem mem_of_lookup {tbl : List (String × Nat)} {a : String} {n : Nat} (h : tbl.lookup a = some n) : (a, n) ∈ tbl := by
  induction tbl with
  | nil => cases h
  | cons e tbl ih =>
    obtain ⟨k, v⟩ := e
    rw [List.lookup_cons] at h
    split at h
    next hk =>
      cases h
      rw [beq_iff_eq] at hk
      subst hk
      exact List.mem_cons_self ..
    · exact List.mem_cons_of_mem _ (ih h)

/-- C34: a non-empty request succeeds exactly if the protocol is `icmp` with an IPv4 family or `icmpv6`
with an IPv6 family and all types are known for the family; the result is then the ascending list of
exactly the numbers of the named types, one for each. -/
theorem C34_types {types protocols : List String} {af : Af} (hne : types ≠ []) (out : List (Option Nat)) :
    normalizeIcmpTypes types protocols af = .ok out ↔
      ∃ tbl : List (String × Nat),
        ((normalizeAf af = .ok 4 ∧ protocols = ["icmp"] ∧ tbl = icmp4) ∨
         (normalizeAf af = .ok 6 ∧ protocols = ["icmpv6"] ∧ tbl = icmp6)) ∧
        (∀ x ∈ types, ∃ n, tbl.lookup x = some n) ∧
        ∃ nums : List Nat, out = nums.map some ∧ nums.Pairwise (· ≤ ·) ∧
          nums.Perm (types.filterMap fun x => tbl.lookup x) := by
  have hne' : types.isEmpty = false := by cases types with | nil => exact absurd rfl hne | cons => rfl
  have le : TotalPre (fun a b : Nat => decide (a ≤ b)) :=
    ⟨fun a b => by simp only [decide_eq_true_eq]; omega, fun a b c => by simp only [decide_eq_true_eq]; omega⟩
  have num : ∀ (n : Nat), normalizeAf af = .ok n → n = 4 ∨ n = 6 := by
    intro n h
    clear hne hne'
    cases af with
    | num m =>
      unfold normalizeAf at h
      dsimp only at h
      split at h
      next hc =>
        rw [List.contains_iff_mem] at hc
        simp only [Except.ok.injEq] at h
        subst h
        simp only [afMap, List.map_cons, List.map_nil, List.mem_cons, List.not_mem_nil, or_false] at hc
        omega
      · simp at h
    | name s =>
      unfold normalizeAf at h
      dsimp only at h
      split at h
      next m hm =>
        simp only [Except.ok.injEq] at h
        subst h
        have := mem_of_lookup hm
        simp only [afMap, List.mem_cons, List.not_mem_nil, or_false, Prod.mk.injEq] at this
        omega
      · simp at h
  have known : ∀ (tbl : List (String × Nat)), (types.any fun x => (tbl.lookup x).isNone) = false ↔
      ∀ x ∈ types, ∃ n, tbl.lookup x = some n := by
    intro tbl
    rw [← Bool.not_eq_true, List.any_eq_true]
    constructor
    · intro h x hx
      cases hl : tbl.lookup x with
      | none => exact absurd ⟨x, hx, by rw [hl]; rfl⟩ h
      | some n => exact ⟨n, rfl⟩
    · rintro h ⟨x, hx, hn⟩
      obtain ⟨n, hn'⟩ := h x hx
      rw [hn'] at hn; cases hn
  have fin : ∀ (tbl : List (String × Nat)) (out : List (Option Nat)),
      (if (types.any fun x => (tbl.lookup x).isNone) = true then (.error (.raised "UnknownIcmpTypeError") : Except Err _)
       else .ok ((isort (fun a b => decide (a ≤ b)) (types.filterMap fun x => tbl.lookup x)).map some)) = .ok out ↔
      (∀ x ∈ types, ∃ n, tbl.lookup x = some n) ∧
        ∃ nums : List Nat, out = nums.map some ∧ nums.Pairwise (· ≤ ·) ∧
          nums.Perm (types.filterMap fun x => tbl.lookup x) := by
    intro tbl out
    have hs := isort_sorted le (types.filterMap fun x => tbl.lookup x)
    have hp := isort_perm (fun a b : Nat => decide (a ≤ b)) (types.filterMap fun x => tbl.lookup x)
    rw [← known tbl]
    cases hk : types.any fun x => (tbl.lookup x).isNone with
    | true => simp
    | false =>
      simp only [Bool.false_eq_true, if_false, true_and]
      constructor
      · intro h; cases h
        exact ⟨_, rfl, hs.imp (by simp), hp⟩
      · rintro ⟨nums, rfl, h1, h2⟩
        have : isort (fun a b => decide (a ≤ b)) (types.filterMap fun x => tbl.lookup x) = nums := by
          refine List.Perm.eq_of_pairwise (le := (· ≤ ·)) ?_ (hs.imp (by simp)) h1 (hp.trans h2.symm)
          intro a b _ _ h h'; omega
        rw [this]
  unfold normalizeIcmpTypes
  rw [hne', if_neg (by simp)]
  by_cases hp : protocols ≠ ["icmp"] ∧ protocols ≠ ["icmpv6"]
  · rw [if_pos hp]
    constructor
    · intro h; cases h
    · rintro ⟨tbl, h | h, _⟩
      · exact absurd h.2.1 hp.1
      · exact absurd h.2.1 hp.2
  · rw [if_neg hp]
    cases haf : normalizeAf af with
    | error e =>
      constructor
      · intro h; cases h
      · rintro ⟨tbl, ⟨h, _⟩ | ⟨h, _⟩, _⟩ <;> cases h
    | ok n =>
      dsimp only
      unfold icmpNumbers
      rcases num n haf with rfl | rfl
      · by_cases h4 : protocols = ["icmp"]
        · subst h4
          rw [if_neg (by decide)]
          refine (fin icmp4 out).trans ?_
          constructor
          · exact fun h => ⟨icmp4, .inl ⟨rfl, rfl, rfl⟩, h⟩
          · rintro ⟨tbl, ⟨_, _, rfl⟩ | ⟨h, _⟩, hh⟩
            · exact hh
            · cases h
        · have h6 : protocols = ["icmpv6"] := Classical.byContradiction fun h => hp ⟨h4, h⟩
          subst h6
          rw [if_pos (by decide)]
          constructor
          · intro h; cases h
          · rintro ⟨tbl, ⟨_, h, _⟩ | ⟨h, _⟩, _⟩
            · exact absurd h h4
            · cases h
      · by_cases h4 : protocols = ["icmp"]
        · subst h4
          rw [if_pos (by decide)]
          constructor
          · intro h; cases h
          · rintro ⟨tbl, ⟨h, _⟩ | ⟨_, h, _⟩, _⟩
            · cases h
            · simp at h
        · have h6 : protocols = ["icmpv6"] := Classical.byContradiction fun h => hp ⟨h4, h⟩
          subst h6
          rw [if_neg (by decide)]
          refine (fin icmp6 out).trans ?_
          constructor
          · exact fun h => ⟨icmp6, .inr ⟨rfl, rfl, rfl⟩, h⟩
          · rintro ⟨tbl, ⟨h, _⟩ | ⟨_, _, rfl⟩, hh⟩
            · cases h
            · exact hh

/-- C34: so the result of a non-empty request has one number for each requested type: it is not empty
and does not contain the wildcard `''`. -/
theorem C34_length {types protocols : List String} {af : Af} (hne : types ≠ []) {out : List (Option Nat)}
    (h : normalizeIcmpTypes types protocols af = .ok out) : out.length = types.length ∧ none ∉ out := by
  obtain ⟨tbl, _, hk, nums, rfl, _, hp⟩ := (C34_types hne out).1 h
  refine ⟨?_, by simp⟩
  rw [List.length_map, hp.length_eq]
  clear hp h hne
  induction types with
  | nil => rfl
  | cons x xs ih =>
    obtain ⟨n, hn⟩ := hk x (List.mem_cons_self ..)
    rw [List.filterMap_cons, hn]
    simp [ih (fun y hy => hk y (List.mem_cons_of_mem _ hy))]

/-- C34: within a family, different type names have different numbers, so no type is widened to another. -/
theorem C34_injective : (∀ a b n, icmp4.lookup a = some n → icmp4.lookup b = some n → a = b) ∧
    (∀ a b n, icmp6.lookup a = some n → icmp6.lookup b = some n → a = b) := by
  have key : ∀ (tbl : List (String × Nat)), (tbl.map Prod.snd).Nodup → ∀ a b n, tbl.lookup a = some n →
      tbl.lookup b = some n → a = b := by
    intro tbl hn a b n ha hb
    have go : ∀ {tbl : List (String × Nat)}, (tbl.map Prod.snd).Nodup → (a, n) ∈ tbl → (b, n) ∈ tbl → a = b := by
      intro tbl hn ha hb
      induction tbl with
      | nil => cases ha
      | cons e tbl ih =>
        rw [List.map_cons, List.nodup_cons] at hn
        rcases List.mem_cons.1 ha with rfl | ha'
        · rcases List.mem_cons.1 hb with hb | hb
          · cases hb; rfl
          · exact absurd (List.mem_map.2 ⟨(b, n), hb, rfl⟩) hn.1
        · rcases List.mem_cons.1 hb with rfl | hb
          · exact absurd (List.mem_map.2 ⟨(a, n), ha', rfl⟩) hn.1
          · exact ih hn.2 ha' hb
    exact go hn (mem_of_lookup ha) (mem_of_lookup hb)
  exact ⟨key _ (by decide), key _ (by decide)⟩

/-- C34: the errors, in the order they are checked. -/
theorem C34_errors {types protocols : List String} {af : Af} {e : Err}
    (h : normalizeIcmpTypes types protocols af = .error e) :
    e = .raised "UnsupportedFilterError" ∨ e = .raised "UnsupportedAFError" ∨ e = .raised "MismatchIcmpInetError" ∨
    e = .raised "UnknownIcmpTypeError" := by
  unfold normalizeIcmpTypes at h
  split at h
  · cases h
  · split at h
    · cases h; exact .inl rfl
    · split at h
      next e' he =>
        cases h
        unfold normalizeAf at he
        split at he
        · split at he
          · cases he
          · cases he; exact .inr (.inl rfl)
        · split at he
          · cases he
          · cases he; exact .inr (.inl rfl)
      · unfold icmpNumbers at h
        split at h
        · cases h; exact .inr (.inr (.inl rfl))
        · split at h
          · cases h; exact .inr (.inr (.inr rfl))
          · cases h

example : normalizeIcmpTypes ["echo-request", "echo-reply"] ["icmp"] (.name "inet") = .ok [some 0, some 8] := by decide
example : normalizeIcmpTypes ["echo-request"] ["icmp"] (.name "inet6") = .error (.raised "MismatchIcmpInetError") := by
  decide

/-! ### C35 -/

theorem attrErrors_iff {g : Tables} {a : String × Val} : attrErrors g a ≠ [] ↔
    (a.2.truthy = true ∧ a.1 ∉ g.tokens ∧ ¬ (∃ r, a.1.toList = "flatten".toList ++ r) ∧ a.1 ∉ g.warnOnly) ∨
    ∃ l ok, a.2 = .words l ∧ g.subTokens.lookup a.1 = some ok ∧ ".*" ∉ ok ∧ ∃ w ∈ l, w ∉ ok := by
  unfold attrErrors
  rw [ne_eq, List.append_eq_nil_iff, Classical.not_and_iff_not_or_not]
  refine or_congr ?_ ?_
  · have hc : ∀ {l : List String} {s : String}, l.contains s = false ↔ s ∉ l := by
      intro l s; rw [← Bool.not_eq_true, List.contains_iff_mem]
    have hs : startsWith "flatten" a.1 = false ↔ ¬ (∃ r, a.1.toList = "flatten".toList ++ r) := by
      rw [← Bool.not_eq_true, startsWith_iff]
    rw [← hc, ← hc, ← hs]
    cases a.2.truthy <;> cases g.tokens.contains a.1 <;> cases startsWith "flatten" a.1 <;>
      cases g.warnOnly.contains a.1 <;> simp
  · unfold badSubs
    cases ha : a.2 with
    | falsy => simp
    | other => simp
    | words l =>
      dsimp only
      cases hl : g.subTokens.lookup a.1 with
      | none => simp
      | some ok =>
        dsimp only
        by_cases hd : ".*" ∈ ok
        · rw [if_pos (List.contains_iff_mem.2 hd)]
          constructor
          · intro h; exact absurd rfl h
          · rintro ⟨l', ok', _, h2, h3, _⟩
            cases h2; exact absurd hd h3
        · rw [if_neg (fun h => hd (List.contains_iff_mem.1 h))]
          constructor
          · intro h
            refine ⟨l, ok, rfl, rfl, hd, ?_⟩
            obtain ⟨w, hw⟩ := List.exists_mem_of_ne_nil _ h
            rw [List.mem_filter] at hw
            exact ⟨w, hw.1, by simpa using hw.2⟩
          · rintro ⟨l', ok', h1, h2, _, w, hw, hn⟩ hh
            cases h1; cases h2
            have : w ∈ l.filter fun v => !ok.contains v := List.mem_filter.2 ⟨hw, by simpa using hn⟩
            rw [hh] at this; cases this

theorem active_iff {g : Tables} {t : KTerm} : active g t = true ↔ Active g.platform t := by
  unfold active Active
  rw [Bool.and_eq_true, Bool.or_eq_true, List.isEmpty_iff, List.contains_iff_mem, Bool.not_eq_true',
    ← Bool.not_eq_true, Bool.and_eq_true, List.contains_iff_mem]
  refine and_congr_right fun _ => ⟨fun h hm => h ⟨?_, hm⟩, fun h hh => h hh.2⟩
  cases hp : t.platformExclude with
  | nil => rw [hp] at hm; cases hm
  | cons => rfl

/-- C35 (partial): generator construction is refused exactly if some active term of a filter for the
platform has an attribute that must be refused and is not one of those the base class only warns about.
The attributes it only warns about are dropped (`C35_refuted`). -/
theorem C35_refused_partial {g : Tables} (hg : ∀ e ∈ g.subTokens, e.1 ∈ g.tokens)
    (filters : List (List String × List KTerm)) :
    initCheck g filters = .error (.raised "UnsupportedFilterError") ↔
      ∃ f ∈ filters, g.platform ∈ f.1 ∧ ∃ t ∈ f.2, Active g.platform t ∧
        ∃ a ∈ t.attrs, Refused g a.1 a.2 ∧ (a.1 ∈ g.warnOnly → a.1 ∈ g.tokens ∨
          (∃ l ok, a.2 = .words l ∧ g.subTokens.lookup a.1 = some ok ∧ ".*" ∉ ok ∧ ∃ w ∈ l, w ∉ ok)) := by
  have hok : tablesOk g = true := by
    unfold tablesOk
    rw [List.all_eq_true]
    exact fun e he => List.contains_iff_mem.2 (hg e he)
  have key : ∀ a : String × Val, attrErrors g a ≠ [] ↔ Refused g a.1 a.2 ∧ (a.1 ∈ g.warnOnly → a.1 ∈ g.tokens ∨
      (∃ l ok, a.2 = .words l ∧ g.subTokens.lookup a.1 = some ok ∧ ".*" ∉ ok ∧ ∃ w ∈ l, w ∉ ok)) := by
    intro a
    rw [attrErrors_iff]
    unfold Refused
    generalize (∃ l ok, a.2 = Val.words l ∧ g.subTokens.lookup a.1 = some ok ∧ ".*" ∉ ok ∧ ∃ w ∈ l, w ∉ ok) = S
    constructor
    · rintro (⟨h1, h2, h3, h4⟩ | h)
      · exact ⟨.inl ⟨h1, h2, h3⟩, fun h => absurd h h4⟩
      · exact ⟨.inr h, fun _ => .inr h⟩
    · rintro ⟨⟨h1, h2, h3⟩ | h, hw⟩
      · rcases Classical.em (a.1 ∈ g.warnOnly) with h4 | h4
        · rcases hw h4 with h | h
          · exact absurd h h2
          · exact .inr h
        · exact .inl ⟨h1, h2, h3, h4⟩
      · exact .inr h
  have step : ∀ t : KTerm, (termErrors g t).isEmpty = false ↔ Active g.platform t ∧ ∃ a ∈ t.attrs, attrErrors g a ≠ [] := by
    intro t
    unfold termErrors
    rw [← active_iff]
    cases active g t with
    | false => simp
    | true =>
      simp only [if_true, true_and]
      rw [← Bool.not_eq_true, List.isEmpty_iff, List.flatMap_eq_nil_iff]
      simp
  unfold initCheck
  rw [hok]
  simp only [Bool.not_true, Bool.false_eq_true, if_false]
  have : (filters.any fun f => f.1.contains g.platform && f.2.any fun t => !(termErrors g t).isEmpty) = true ↔
      ∃ f ∈ filters, g.platform ∈ f.1 ∧ ∃ t ∈ f.2, Active g.platform t ∧ ∃ a ∈ t.attrs, attrErrors g a ≠ [] := by
    rw [List.any_eq_true]
    refine exists_congr fun f => and_congr_right fun _ => ?_
    rw [Bool.and_eq_true, List.contains_iff_mem, List.any_eq_true]
    refine and_congr_right fun _ => exists_congr fun t => and_congr_right fun _ => ?_
    rw [Bool.not_eq_true']
    exact step t
  simp only [← key]
  rw [← this]
  generalize (filters.any fun f => f.1.contains g.platform && f.2.any fun t => !(termErrors g t).isEmpty) = b
  cases b <;> simp

/-- C35: otherwise construction goes on to the translation. -/
theorem C35_total (g : Tables) (filters : List (List String × List KTerm)) :
    initCheck g filters = .ok () ∨ initCheck g filters = .error (.raised "UnsupportedFilterError") := by
  unfold initCheck
  split
  · exact .inr rfl
  · split
    · exact .inr rfl
    · exact .inl rfl

/-- C35 is false: a `restrict_address_family` (which narrows a term to one family) that the generator does
not know is accepted. -/
theorem C35_refuted : ∃ (g : Tables) (t : KTerm) (a : String × Val), a ∈ t.attrs ∧ Active g.platform t ∧
    Refused g a.1 a.2 ∧ initCheck g [([g.platform], [t])] = .ok () :=
  ⟨baseTables "iptables", { attrs := [("restrict_address_family", .other)] }, _, List.mem_singleton.2 rfl,
    ⟨.inl rfl, by simp⟩, .inl ⟨rfl, by decide, by
      rintro ⟨r, h⟩
      have := congrArg List.head? h
      simp at this⟩, by decide⟩

example : initCheck (baseTables "iptables") [(["iptables"], [{ attrs := [("option", .words ["sample", "inactive"])] }])] =
    .error (.raised "UnsupportedFilterError") := by decide

example : ∀ e ∈ (baseTables "iptables").subTokens, e.1 ∈ (baseTables "iptables").tokens := by decide

/-! ### C54 -/

/-- C54 (partial): `TruncateWords` of a list of texts is one quoted text of at most `limit` (and at most
126) characters without line breaks or inner quotes. For a single text the inner quotes and line breaks
stay (`C54_refuted`). -/
theorem C54_list_partial (l : List Str) (limit : Nat) :
    ∃ body, truncateWords (.inl l) limit = '"' :: (body ++ ['"']) ∧ body.length ≤ limit ∧ body.length ≤ 126 ∧
      '"' ∉ body ∧ '\n' ∉ body := by
  have san : ∀ s : Str, '"' ∉ sanitize s ∧ '\n' ∉ sanitize s := by
    intro s
    unfold sanitize
    constructor
    · intro h
      obtain ⟨c, _, hc⟩ := List.mem_map.1 h
      split at hc
      · simp at hc
      next hn => exact hn hc
    · intro h
      obtain ⟨c, hc', hc⟩ := List.mem_map.1 h
      split at hc
      · simp at hc
      · subst hc
        obtain ⟨d, _, hd⟩ := List.mem_map.1 hc'
        split at hd
        · simp at hd
        next hn => exact hn hd
  have join : ∀ l : List Str, '"' ∉ joinBlank (l.map sanitize) ∧ '\n' ∉ joinBlank (l.map sanitize) := by
    intro l
    induction l with
    | nil => simp [joinBlank]
    | cons a l ih =>
      cases l with
      | nil => exact san a
      | cons b l =>
        simp only [List.map_cons] at ih ⊢
        rw [joinBlank]
        simp only [List.mem_append, List.mem_cons, not_or]
        exact ⟨⟨(san a).1, by decide, ih.1⟩, (san a).2, by decide, ih.2⟩
  refine ⟨_, rfl, ?_, ?_, fun h => (join l).1 (List.mem_of_mem_take h), fun h => (join l).2 (List.mem_of_mem_take h)⟩
  · rw [List.length_take]
    split <;> omega
  · rw [List.length_take]
    split <;> omega

/-- C54: the length bound holds for single texts too, and texts within the bound are kept whole. -/
theorem C54_text (s : Str) (limit : Nat) : ∃ body, truncateWords (.inr s) limit = '"' :: (body ++ ['"']) ∧
    body.length ≤ limit ∧ body.length ≤ 126 ∧ body <+: s ∧ (s.length ≤ limit → s.length ≤ 126 → body = s) := by
  refine ⟨_, rfl, ?_, ?_, List.take_prefix _ _, fun h1 h2 => List.take_of_length_le ?_⟩
  · rw [List.length_take]; split <;> omega
  · rw [List.length_take]; split <;> omega
  · show s.length ≤ if limit > 126 then 126 else limit
    split <;> omega

/-- C54 is false for a single text: an inner quote is kept, so the quoted text ends early. -/
theorem C54_refuted : ∃ s body, truncateWords (.inr s) 100 = '"' :: (body ++ ['"']) ∧ '"' ∈ body ∧ '\n' ∈ body :=
  ⟨"a\"\nb".toList, "a\"\nb".toList, by decide, by decide, by decide⟩

example : truncateWords (.inl ["say \"hi\"".toList, "two\nlines".toList]) 12 = "\"say 'hi' two\"".toList := by decide

/-! ### C55 -/

/-- C55: a generator term is accepted exactly if every protocol is a known name or the number of one;
only `ipip` is rewritten, to the number 4. -/
theorem C55_protocols (ps out : List Proto) : termProtocols ps = .ok out ↔
    (∀ p ∈ ps, (∃ s, p = .str s ∧ s ∈ protoMap.map Prod.fst) ∨ p.text ∈ protoMap.map fun e => toString e.2) ∧
    out = ps.map fun p => if p = .str "ipip" then .num 4 else p := by
  have hm : ps.map protoNumber = ps.map fun p => if p = .str "ipip" then Proto.num 4 else p := by
    refine List.map_congr_left fun p _ => ?_
    unfold protoNumber
    cases p with
    | num n => simp
    | str s =>
      by_cases h : s = "ipip"
      · subst h; decide
      · simp [h]
  have hk : ∀ p : Proto, p.known = true ↔ ∃ s, p = .str s ∧ s ∈ protoMap.map Prod.fst := by
    intro p
    cases p with
    | num n => simp [Proto.known]
    | str s =>
      unfold Proto.known
      rw [List.contains_iff_mem]
      constructor
      · exact fun h => ⟨s, rfl, h⟩
      · rintro ⟨s', h, hs⟩; cases h; exact hs
  have ha : (ps.any fun p => !p.known && !(protoMap.map fun e => toString e.2).contains p.text) = false ↔
      ∀ p ∈ ps, (∃ s, p = .str s ∧ s ∈ protoMap.map Prod.fst) ∨ p.text ∈ protoMap.map fun e => toString e.2 := by
    rw [← Bool.not_eq_true, List.any_eq_true]
    simp only [← hk, Bool.and_eq_true, Bool.not_eq_true']
    constructor
    · intro h p hp
      cases h1 : p.known with
      | true => exact .inl rfl
      | false =>
        cases h2 : (protoMap.map fun e => toString e.2).contains p.text with
        | true => exact .inr (List.contains_iff_mem.1 h2)
        | false => exact absurd ⟨p, hp, h1, h2⟩ h
    · rintro h ⟨p, hp, h1, h2⟩
      rcases h p hp with h | h
      · rw [h1] at h; cases h
      · rw [List.contains_iff_mem.2 h] at h2; cases h2
  unfold termProtocols
  rw [hm]
  cases hany : ps.any fun p => !p.known && !(protoMap.map fun e => toString e.2).contains p.text with
  | true =>
    rw [if_pos rfl]
    constructor
    · intro h; cases h
    · rintro ⟨h, _⟩; rw [ha.2 h] at hany; cases hany
  | false =>
    rw [if_neg (by simp)]
    constructor
    · intro h; cases h; exact ⟨ha.1 hany, rfl⟩
    · rintro ⟨_, rfl⟩; rfl

/-- C55: constructing the term again (the same policy term is used by several generators) changes
nothing. -/
theorem C55_idempotent {ps out : List Proto} (h : termProtocols ps = .ok out) : termProtocols out = .ok out := by
  obtain ⟨h1, rfl⟩ := (C55_protocols ps out).1 h
  refine (C55_protocols _ _).2 ⟨fun p hp => ?_, ?_⟩
  · obtain ⟨q, hq, rfl⟩ := List.mem_map.1 hp
    split
    · exact .inr (by decide)
    · exact h1 q hq
  · rw [List.map_map]
    refine List.map_congr_left fun p _ => ?_
    simp only [Function.comp]
    by_cases h : p = .str "ipip"
    · simp [h]
    · simp [h]

example : termProtocols [.str "tcp", .str "ipip", .str "17"] = .ok [.str "tcp", .num 4, .str "17"] := by decide
example : termProtocols [.str "foo"] = .error (.raised "UnsupportedFilterError") := by decide

end Verif.Props
