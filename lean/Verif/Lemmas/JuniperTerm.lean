import Verif.Lemmas.Juniper
import Verif.Props.Cisco

/-!
Lemmas for the match conditions of a Juniper term.
-/

namespace Verif
namespace Juniper
open Policy Aclgenerator Summarizer Spec Spec.Junos

theorem forall_opt {α : Type} {b : Bool} {x : α} {P : α → Prop} : (∀ c ∈ opt b x, P c) ↔ (b = true → P x) := by
  unfold opt
  cases b <;> simp

theorem forall_app {α : Type} {l m : List α} {P : α → Prop} : (∀ c ∈ l ++ m, P c) ↔ (∀ c ∈ l, P c) ∧ ∀ c ∈ m, P c := by
  simp only [List.mem_append]
  exact ⟨fun h => ⟨fun c hc => h c (.inl hc), fun c hc => h c (.inr hc)⟩,
    fun h c hc => hc.elim (h.1 c) (h.2 c)⟩

/-- The values of a group. -/
theorem values_group (hd : String) {l : List Tok} (h : l ≠ []) : ∃ v, group hd l = .w hd :: v ∧ values v = l := by
  unfold group
  split
  · refine ⟨_, rfl, ?_⟩
    simp [values]
  · refine ⟨l, rfl, ?_⟩
    match l with
    | [] => exact absurd rfl h
    | [t] =>
      unfold values
      split
      next h' => cases h'; simp
      next => rfl
    | _ :: _ :: _ => simp at *

theorem values_bracketed (hd : String) (l : List String) :
    ∃ v, bracketed hd l = .w hd :: v ∧ values v = wordToks l :=
  ⟨_, rfl, by simp [values]⟩

theorem leaf_group {p : Packet} (hd : String) {l : List Tok} (h : l ≠ []) :
    CondMatches p (.leaf (group hd l)) ↔ LeafMatches p hd l := by
  obtain ⟨v, e, e'⟩ := values_group hd h
  rw [e]
  change LeafMatches p hd (values v) ↔ _
  rw [e']

theorem leaf_bracketed {p : Packet} (hd : String) (l : List String) :
    CondMatches p (.leaf (bracketed hd l)) ↔ LeafMatches p hd (wordToks l) := by
  obtain ⟨v, e, e'⟩ := values_bracketed hd l
  rw [e]
  change LeafMatches p hd (values v) ↔ _
  rw [e']

theorem values_num (n : Nat) : values [.num n] = [.num n] := rfl

theorem values_span (l : List Nat) (h : l ≠ []) : values [spanTok l] = [spanTok l] := by
  match l with
  | [a] => rfl
  | a :: b :: _ => rfl

theorem mem_wordToks {l : List String} {s : String} : Tok.w s ∈ wordToks l ↔ s ∈ l := by
  unfold wordToks
  rw [List.mem_map]
  constructor
  · rintro ⟨x, hx, e⟩
    cases e
    exact hx
  · intro h
    exact ⟨s, h, rfl⟩

theorem numIn_ports {l : List PortRange} {x : Nat} : NumIn (l.map portTok) x ↔ PMem l x := by
  unfold NumIn PMem
  simp only [List.mem_map]
  constructor
  · rintro (⟨r, hr, e⟩ | ⟨a, b, ⟨r, hr, e⟩, h⟩) <;> refine ⟨r, hr, ?_⟩ <;> unfold portTok at e <;> split at e <;>
      cases e <;> omega
  · rintro ⟨r, hr, h1, h2⟩
    by_cases he : r.1 = r.2
    · refine .inl ⟨r, hr, ?_⟩
      unfold portTok
      rw [if_pos he]
      congr 1
      omega
    · refine .inr ⟨r.1, r.2, ⟨r, hr, ?_⟩, h1, h2⟩
      unfold portTok
      rw [if_neg he]

theorem numIn_nums {l : List Nat} {x : Nat} : NumIn (l.map fun n : Nat => Tok.num n) x ↔ x ∈ l := by
  unfold NumIn
  simp only [List.mem_map]
  constructor
  · rintro (⟨a, h, e⟩ | ⟨a, b, ⟨_, _, e⟩, _⟩)
    · cases e; exact h
    · cases e
  · intro h
    exact .inl ⟨x, h, rfl⟩

theorem numIn_span {l : List Nat} (h : l ≠ []) {x : Nat} : NumIn [spanTok l] x ↔ RangeMatch l x := by
  match l with
  | [a] => simp [NumIn, spanTok, RangeMatch]
  | a :: b :: _ =>
    simp only [NumIn, spanTok, RangeMatch, List.mem_singleton, reduceCtorEq, false_or, Tok.range.injEq]
    constructor
    · rintro ⟨_, _, ⟨rfl, rfl⟩, k⟩; exact k
    · intro k; exact ⟨a, b, ⟨rfl, rfl⟩, k⟩

theorem isEmpty_not {α : Type} {l : List α} : (!l.isEmpty) = true ↔ l ≠ [] := by simp

theorem oneOf_group {p : Packet} {hd : String} {l : List String} {x : String}
    (h : LeafMatches p hd (wordToks l) ↔ Tok.w x ∈ wordToks l) :
    (∀ c ∈ opt (!l.isEmpty) (Cond.leaf (group hd (wordToks l))), CondMatches p c) ↔ OneOf l x := by
  rw [forall_opt, isEmpty_not]
  unfold OneOf
  by_cases hl : l = []
  · simp [hl]
  · rw [leaf_group hd (by simpa [wordToks] using hl), h, mem_wordToks]
    simp [hl]

theorem noneOf_group {p : Packet} {hd : String} {l : List String} {x : String}
    (h : LeafMatches p hd (wordToks l) ↔ Tok.w x ∉ wordToks l) :
    (∀ c ∈ opt (!l.isEmpty) (Cond.leaf (group hd (wordToks l))), CondMatches p c) ↔ x ∉ l := by
  rw [forall_opt, isEmpty_not]
  by_cases hl : l = []
  · simp [hl]
  · rw [leaf_group hd (by simpa [wordToks] using hl), h, mem_wordToks]
    simp [hl]

theorem portMatch_group {p : Packet} {hd : String} {l : List PortRange} {x : Nat}
    (h : LeafMatches p hd (l.map portTok) ↔ NumIn (l.map portTok) x) :
    (∀ c ∈ opt (!l.isEmpty) (Cond.leaf (group hd (l.map portTok))), CondMatches p c) ↔ PortMatch l x := by
  rw [forall_opt, isEmpty_not]
  unfold PortMatch
  by_cases hl : l = []
  · simp [hl]
  · rw [leaf_group hd (by simpa using hl), h, numIn_ports]
    simp [hl]

theorem span_leaf {p : Packet} {hd : String} {l : List Nat} {x : Nat}
    (h : LeafMatches p hd [spanTok l] ↔ NumIn [spanTok l] x) :
    (∀ c ∈ opt (!l.isEmpty) (Cond.leaf [.w hd, spanTok l]), CondMatches p c) ↔ RangeMatch l x := by
  rw [forall_opt, isEmpty_not]
  by_cases hl : l = []
  · simp [hl, RangeMatch]
  · have e : CondMatches p (.leaf [.w hd, spanTok l]) ↔ LeafMatches p hd (values [spanTok l]) := Iff.rfl
    rw [e, values_span l hl, h, numIn_span hl]
    simp [hl]

theorem prefixCond_match {p : Packet} {hd : String} {f : String → Bool} {inc exc : List String}
    (h : ∀ ls, CondMatches p (.block hd ls) ↔ PrefixLines ls f) (h0 : inc = [] → exc = []) :
    (∀ c ∈ prefixCond hd inc exc, CondMatches p c) ↔
      (inc = [] ∨ ∃ n ∈ inc, f n = true) ∧ ∀ n ∈ exc, f n = false := by
  unfold prefixCond
  rw [forall_opt, h]
  by_cases hi : inc = []
  · have := h0 hi
    simp [hi, this]
  · have e1 : ∀ n, [Tok.w n] ∈ ((inc.map fun s => [Tok.w s]) ++ exc.map fun s => [Tok.w s, Tok.w "except"]) ↔ n ∈ inc := by
      intro n
      simp
    have e2 : ∀ n, [Tok.w n, Tok.w "except"] ∈
        ((inc.map fun s => [Tok.w s]) ++ exc.map fun s => [Tok.w s, Tok.w "except"]) ↔ n ∈ exc := by
      intro n
      simp
    unfold PrefixLines
    simp only [e1, e2]
    simp [hi]

/-- Conditions from forwarding-class to destination-port. -/
theorem conds1_match {ty : TType} {t : Term} {p : Packet} (h1 : t.ttl ≠ some 0) (h2 : ty ≠ .inet → t.ttl = none)
    (h3 : t.sourcePrefix = [] → t.sourcePrefixExcept = [])
    (h4 : t.destinationPrefix = [] → t.destinationPrefixExcept = []) :
    (∀ c ∈ conds1 ty t, CondMatches p c) ↔
      OneOf t.forwardingClass p.forwardingClass ∧ p.forwardingClass ∉ t.forwardingClassExcept ∧
      ((t.sourcePrefix = [] ∨ ∃ n ∈ t.sourcePrefix, p.inSrcPrefix n = true) ∧
        ∀ n ∈ t.sourcePrefixExcept, p.inSrcPrefix n = false) ∧
      ((t.destinationPrefix = [] ∨ ∃ n ∈ t.destinationPrefix, p.inDstPrefix n = true) ∧
        ∀ n ∈ t.destinationPrefixExcept, p.inDstPrefix n = false) ∧
      (t.ttl = none ∨ t.ttl = some p.ttl) ∧ (t.port = [] ∨ PMem t.port p.sport ∨ PMem t.port p.dport) ∧
      PortMatch t.sourcePort p.sport ∧ PortMatch t.destinationPort p.dport := by
  unfold conds1
  iterate 7 rw [forall_app]
  refine and_congr (oneOf_group (by simp [LeafMatches])) (and_congr (noneOf_group (by simp [LeafMatches]))
    (and_congr (prefixCond_match (by simp [CondMatches]) h3) (and_congr (prefixCond_match (by simp [CondMatches]) h4)
    (and_congr ?_ (and_congr ?_ (and_congr (portMatch_group (by simp [LeafMatches]))
      (portMatch_group (by simp [LeafMatches]))))))))
  · rw [forall_opt]
    cases ht : t.ttl with
    | none => simp
    | some n =>
      have hn : n ≠ 0 := by rintro rfl; exact h1 ht
      have : ty = .inet := by
        refine Classical.byContradiction fun hne => ?_
        rw [h2 hne] at ht; cases ht
      subst this
      simp [hn, CondMatches, values_num, LeafMatches, NumIn]
      exact eq_comm
  · rw [forall_opt, isEmpty_not]
    by_cases hl : t.port = []
    · simp [hl]
    · rw [leaf_group _ (by simpa using hl)]
      simp [LeafMatches, numIn_ports, hl]

/-- Packet length and fragment offset. -/
theorem conds2_match {t : Term} {p : Packet} : (∀ c ∈ conds2 t, CondMatches p c) ↔
    RangeMatch t.packetLength p.packetLength ∧ RangeMatch t.fragmentOffset p.fragmentOffset := by
  unfold conds2
  rw [forall_app]
  exact and_congr (span_leaf (by simp [LeafMatches])) (span_leaf (by simp [LeafMatches]))

/-- Icmp types. -/
theorem icmpCond_match {ty : TType} (hty : ty ≠ .bridge) {t : Term} {cs : List Cond} (h : icmpCond ty t = .ok cs)
    {p : Packet} (hv : p.ver = ty.af) : (∀ c ∈ cs, CondMatches p c) ↔ OneOf t.icmpType p.icmpType := by
  unfold icmpCond at h
  split at h
  next h0 =>
    cases h
    simp [OneOf, List.isEmpty_iff.1 h0]
  next h0 =>
    obtain ⟨l, h1, h⟩ := bind_ok h
    cases h
    have h0' : t.icmpType ≠ [] := by simpa using h0
    have hi : Cisco.icmpTypesOf t ty.af = .ok l := by
      unfold Cisco.icmpTypesOf
      rw [if_neg h0, ← h1]
      unfold normalizeIcmpTypes
      cases ty
      · rw [show normalizeAf (.name TType.inet.name) = normalizeAf (.num TType.inet.af.num) from rfl]
      · rw [show normalizeAf (.name TType.inet6.name) = normalizeAf (.num TType.inet6.af.num) from rfl]
      · exact absurd rfl hty
    obtain ⟨s1, s2, _⟩ := Cisco.icmpTypes_spec hi p
    have s2 := s2 h0'
    rw [← s1]
    have hne : l ≠ [] := by
      rintro rfl
      obtain ⟨_, _, _, nums, e, _, hp⟩ := (Props.C34_types h0' []).1 h1
      have : nums = [] := by simpa using e.symm
      subst this
      obtain ⟨tbl, _, hk, nums, e, _, hp⟩ := (Props.C34_types h0' []).1 h1
      have : nums = [] := by simpa using e.symm
      subst this
      have hp := hp.nil_eq
      cases hx : t.icmpType with
      | nil => exact h0' hx
      | cons x xs =>
        obtain ⟨n, hn⟩ := hk x (by rw [hx]; simp)
        rw [hx] at hp
        simp [hn] at hp
    simp only [List.mem_singleton, forall_eq]
    rw [leaf_group _ (by simpa using hne)]
    have e : LeafMatches p "icmp-type" (l.map fun n : Option Nat => Tok.num (n.getD 0)) ↔
        ∃ k : Nat, (p.icmpType, k) ∈ icmpNumbers p.ver ∧ NumIn (l.map fun n : Option Nat => Tok.num (n.getD 0)) k := by
      simp [LeafMatches]
    rw [e, hv]
    constructor
    · rintro ⟨k, hk, hn | ⟨_, _, hn, _⟩⟩
      · obtain ⟨o, ho, e⟩ := List.mem_map.1 hn
        refine ⟨o, ho, fun k' e' => ?_⟩
        subst e'
        cases e
        exact hk
      · obtain ⟨_, _, e⟩ := List.mem_map.1 hn
        cases e
    · rintro ⟨o, ho, hk⟩
      cases o with
      | none => exact absurd ho s2
      | some k => exact ⟨k, hk k rfl, .inl (List.mem_map.2 ⟨_, ho, rfl⟩)⟩

/-- A word names the protocol. -/
def Names (s proto : String) : Prop :=
  s = proto ∨ (s = "icmp6" ∧ proto = "icmpv6") ∨ (s = "hop-by-hop" ∧ proto = "hopopt") ∨
    ∃ e ∈ iana, e.1 = proto ∧ s = toString e.2

instance (s proto : String) : Decidable (Names s proto) := by unfold Names; infer_instance

theorem protoIn_iff {l : List String} {proto : String} : ProtoIn (wordToks l) proto ↔ ∃ s ∈ l, Names s proto := by
  unfold ProtoIn Names
  constructor
  · rintro ⟨s, hs, h⟩
    refine ⟨s, mem_wordToks.1 hs, ?_⟩
    rcases h with h | h | h | ⟨k, h, e⟩
    · exact .inl h
    · exact .inr (.inl h)
    · exact .inr (.inr (.inl h))
    · exact .inr (.inr (.inr ⟨_, h, rfl, e⟩))
  · rintro ⟨s, hs, h⟩
    refine ⟨s, mem_wordToks.2 hs, ?_⟩
    rcases h with h | h | h | ⟨e, h, rfl, e'⟩
    · exact .inl h
    · exact .inr (.inl h)
    · exact .inr (.inr (.inl h))
    · exact .inr (.inr (.inr ⟨_, h, e'⟩))

theorem exists_replaceFirst {a b : String} {P : String → Prop} (h : P a ↔ P b) : ∀ l : List String,
    (∃ s ∈ replaceFirst a b l, P s) ↔ ∃ s ∈ l, P s
  | [] => by simp [replaceFirst]
  | x :: xs => by
    rw [replaceFirst]
    split
    next e => subst e; simp [h]
    next => simp [exists_replaceFirst h xs]

theorem exists_removeFirst {a : String} {P : String → Prop} (h : ¬ P a) : ∀ l : List String,
    (∃ s ∈ removeFirst a l, P s) ↔ ∃ s ∈ l, P s
  | [] => by simp [removeFirst]
  | x :: xs => by
    rw [removeFirst]
    split
    next e => subst e; simp [h]
    next => simp [exists_removeFirst h xs]

theorem names_iana {s proto : String} (hs : s ∈ iana.map Prod.fst) (hp : proto ∈ iana.map Prod.fst) :
    Names s proto ↔ s = proto := by
  have h : ∀ s ∈ iana.map Prod.fst, ∀ p ∈ iana.map Prod.fst, decide (Names s p) = decide (s = p) := by decide +kernel
  have := h s hs proto hp
  exact decide_eq_decide.1 this

theorem exists_names {l : List String} {proto : String} (hl : ∀ s ∈ l, s ∈ iana.map Prod.fst)
    (hp : proto ∈ iana.map Prod.fst) : (∃ s ∈ l, Names s proto) ↔ proto ∈ l := by
  constructor
  · rintro ⟨s, hs, h⟩
    rw [← (names_iana (hl s hs) hp).1 h]
    exact hs
  · intro h
    exact ⟨proto, h, .inl rfl⟩

theorem names_hop {proto : String} (hp : proto ∈ iana.map Prod.fst) : Names "hopopt" proto ↔ Names "hop-by-hop" proto := by
  revert proto; decide +kernel
theorem names_icmp6 {proto : String} (hp : proto ∈ iana.map Prod.fst) : Names "icmpv6" proto ↔ Names "icmp6" proto := by
  revert proto; decide +kernel
theorem names_ipip {proto : String} (hp : proto ∈ iana.map Prod.fst) : Names "ipip" proto ↔ Names "4" proto := by
  revert proto; decide +kernel

/-- The protocols a term object has after `Term.__init__`. -/
theorem exists_init {l : List String} {ps : List Proto} (h : termProtocols (l.map .str) = .ok ps) {proto : String}
    (hp : proto ∈ iana.map Prod.fst) :
    (∃ s ∈ replaceFirst "hopopt" "hop-by-hop" (ps.map Proto.text), Names s proto) ↔ ∃ s ∈ l, Names s proto := by
  rw [exists_replaceFirst (names_hop hp)]
  unfold termProtocols at h
  split at h
  · cases h
  · simp only [Except.ok.injEq] at h
    subst h
    have key : ∀ s : String, Names (protoNumber (.str s)).text proto ↔ Names s proto := by
      intro s
      unfold protoNumber
      dsimp only
      split
      next e =>
        have : s = "ipip" := by simpa using e
        subst this
        exact (names_ipip hp).symm
      next => rfl
    simp only [List.mem_map]
    constructor
    · rintro ⟨_, ⟨_, ⟨_, ⟨s, hs, rfl⟩, rfl⟩, rfl⟩, h⟩
      exact ⟨s, hs, (key s).1 h⟩
    · rintro ⟨s, hs, h⟩
      exact ⟨_, ⟨_, ⟨_, ⟨s, hs, rfl⟩, rfl⟩, rfl⟩, (key s).2 h⟩

/-- Removing the icmp protocols of the other family does not change what packets of the family match. -/
theorem exists_prune {ty : TType} {l : List String} {p : Packet} (hp : Coherent p) (hv : p.ver = ty.af) :
    (∃ s ∈ pruneIcmp ty l, Names s p.proto) ↔ ∃ s ∈ l, Names s p.proto := by
  have h4 : ∀ q ∈ iana.map Prod.fst, q ≠ "icmpv6" → ¬ Names "icmpv6" q ∧ ¬ Names "icmp6" q := by decide +kernel
  have h6 : ∀ q ∈ iana.map Prod.fst, q ≠ "icmp" → ¬ Names "icmp" q := by decide +kernel
  cases ty with
  | inet =>
    obtain ⟨a, b⟩ := h4 p.proto hp.proto (hp.icmp4 hv)
    unfold pruneIcmp
    dsimp only
    rw [exists_removeFirst (P := fun s => Names s p.proto) b, exists_removeFirst (P := fun s => Names s p.proto) a]
  | inet6 =>
    unfold pruneIcmp
    dsimp only
    rw [exists_removeFirst (P := fun s => Names s p.proto) (h6 p.proto hp.proto (hp.icmp6 hv))]
  | bridge => rfl

theorem replaceFirst_ne {a b : String} {l : List String} : replaceFirst a b l = [] ↔ l = [] := by
  cases l with
  | nil => simp [replaceFirst]
  | cons x xs => simp [replaceFirst]; split <;> simp

/-- Conditions from icmp-code to traffic-type. -/
theorem conds3_match {ty : TType} (hty : ty ≠ .bridge) {t : Term} {p : Packet} (hv : p.ver = ty.af) :
    (∀ c ∈ conds3 ty t, CondMatches p c) ↔
      OneOf t.icmpCode p.icmpCode ∧ OneOf t.etherType p.etherType ∧
      (t.protocol = [] ∨ ∃ s ∈ t.protocol, Names s p.proto) ∧ (¬ ∃ s ∈ t.protocolExcept, Names s p.proto) ∧
      OneOf t.trafficType p.trafficType := by
  unfold conds3
  iterate 4 rw [forall_app]
  refine and_congr ?_ (and_congr (oneOf_group (by simp [LeafMatches])) (and_congr ?_ (and_congr ?_
    (oneOf_group (by simp [LeafMatches])))))
  · rw [forall_opt, isEmpty_not]
    by_cases hl : t.icmpCode = []
    · simp [hl, OneOf]
    · have e : LeafMatches p "icmp-code" (t.icmpCode.map fun n : Nat => Tok.num n) ↔
          NumIn (t.icmpCode.map fun n : Nat => Tok.num n) p.icmpCode := by simp [LeafMatches]
      rw [leaf_group _ (by simpa using hl), e, numIn_nums]
      simp [hl, OneOf]
  · rw [forall_opt, isEmpty_not]
    by_cases hl : t.protocol = []
    · simp [hl]
    · have e : LeafMatches p (kw ty "protocol") (wordToks t.protocol) ↔ ProtoIn (wordToks t.protocol) p.proto := by
        cases ty
        · simp [LeafMatches, kw, hv, TType.af]
        · simp [LeafMatches, kw, hv, TType.af]
        · exact absurd rfl hty
      rw [leaf_group _ (by simpa [wordToks] using hl), e, protoIn_iff]
      simp [hl]
  · rw [forall_opt, isEmpty_not]
    by_cases hl : t.protocolExcept = []
    · simp [hl]
    · have e : LeafMatches p (kw ty "protocol-except") (wordToks t.protocolExcept) ↔
          ¬ ProtoIn (wordToks t.protocolExcept) p.proto := by
        cases ty
        · simp [LeafMatches, kw, hv, TType.af]
        · simp [LeafMatches, kw, hv, TType.af]
        · exact absurd rfl hty
      rw [leaf_group _ (by simpa [wordToks] using hl), e, protoIn_iff]
      simp [hl]

/-- Precedence. -/
theorem precCond_match {t : Term} {cs : List Cond} (h : precCond t = .ok cs) {p : Packet} :
    (∀ c ∈ cs, CondMatches p c) ↔ OneOf t.precedence p.precedence := by
  unfold precCond at h
  split at h
  next h0 =>
    cases h
    simp [OneOf, List.isEmpty_iff.1 h0]
  next h0 =>
    have h0' : t.precedence ≠ [] := by simpa using h0
    obtain ⟨_, _, h⟩ := bind_ok h
    cases h
    have hm : ∀ s, s ∈ isort strLe t.precedence.eraseDups ↔ s ∈ t.precedence := by
      intro s
      rw [(isort_perm _ _).mem_iff, List.mem_eraseDups]
    have hne : isort strLe t.precedence.eraseDups ≠ [] := by
      intro e
      cases hx : t.precedence with
      | nil => exact h0' hx
      | cons x xs =>
        have := (hm x).2 (by rw [hx]; simp)
        rw [e] at this
        cases this
    simp only [List.mem_singleton, forall_eq]
    have e : ∀ l, LeafMatches p "precedence" l ↔ Tok.w p.precedence ∈ l := by simp [LeafMatches]
    rw [leaf_group _ (by simpa [wordToks] using hne), e, mem_wordToks, hm]
    simp [OneOf, h0']

/-- DSCP, hop limit and flexible match. -/
theorem conds4_match {ty : TType} (hty : ty ≠ .bridge) {t : Term} {p : Packet} (hv : p.ver = ty.af)
    (hh : ty = .inet → t.hopLimit = []) :
    (∀ c ∈ conds4 ty t, CondMatches p c) ↔
      OneOf t.dscpMatch p.dscp ∧ p.dscp ∉ t.dscpExcept ∧ RangeMatch t.hopLimit p.hopLimit ∧
      ∀ f ∈ t.flexibleMatchRange, p.flexible f = true := by
  unfold conds4
  iterate 3 rw [forall_app]
  refine and_congr ?_ (and_congr ?_ (and_congr ?_ ?_))
  · rw [forall_opt, isEmpty_not]
    by_cases hl : t.dscpMatch = []
    · simp [hl, OneOf]
    · rw [leaf_bracketed]
      have e : LeafMatches p (if ty = .inet6 then "traffic-class" else "dscp") (wordToks t.dscpMatch) ↔
          Tok.w p.dscp ∈ wordToks t.dscpMatch := by
        cases ty
        · simp [LeafMatches, hv, TType.af]
        · simp [LeafMatches, hv, TType.af]
        · exact absurd rfl hty
      rw [e, mem_wordToks]
      simp [hl, OneOf]
  · rw [forall_opt, isEmpty_not]
    by_cases hl : t.dscpExcept = []
    · simp [hl]
    · rw [leaf_bracketed]
      have e : LeafMatches p (if ty = .inet6 then "traffic-class-except" else "dscp-except") (wordToks t.dscpExcept) ↔
          Tok.w p.dscp ∉ wordToks t.dscpExcept := by
        cases ty
        · simp [LeafMatches, hv, TType.af]
        · simp [LeafMatches, hv, TType.af]
        · exact absurd rfl hty
      rw [e, mem_wordToks]
      simp [hl]
  · cases ty with
    | inet => simp [hh rfl, opt, RangeMatch]
    | inet6 =>
      have := span_leaf (p := p) (hd := "hop-limit") (l := t.hopLimit) (x := p.hopLimit) (by simp [LeafMatches])
      rw [← this]
      simp
    | bridge => exact absurd rfl hty
  · rw [forall_opt, isEmpty_not]
    by_cases hl : t.flexibleMatchRange = []
    · simp [hl]
    · simp [CondMatches, hl]

/-! ### options -/

/-- The options whose meaning is defined. -/
def knownOptions : List String :=
  ["sample", "established", "tcp-established", "rst", "initial", "tcp-initial", "first-fragment", "is-fragment"]

theorem leaf_flag {p : Packet} (s : String)
    (h : s ∈ ["tcp-established", "initial", "tcp-initial", "first-fragment", "is-fragment"]) :
    CondMatches p (.leaf [.w s]) ↔ p.hasOption s = true := by
  simp only [List.mem_cons, List.not_mem_nil, or_false] at h
  rcases h with rfl | rfl | rfl | rfl | rfl <;> simp [CondMatches, values, LeafMatches]

theorem leaf_rst {p : Packet} : CondMatches p (.leaf [.w "tcp-flags", .w "\"rst\""]) ↔ p.hasOption "rst" = true := by
  simp [CondMatches, values, LeafMatches]

theorem optionStep_spec {ty : TType} (hty : ty ≠ .bridge) {prot : List String} {acc acc' : List (List Tok) × List String}
    {o : String} (ho : o ∈ knownOptions) {p : Packet} (hp : Packets p)
    (he : o = "established" → prot = ["tcp"] ∨ p.hasOption "tcp-established" = true)
    (h : optionStep ty prot acc o = .ok acc') :
    ((∀ l ∈ acc'.1, CondMatches p (.leaf l)) ↔
      (∀ l ∈ acc.1, CondMatches p (.leaf l)) ∧ (o ≠ "sample" → p.hasOption o = true)) ∧
    ∀ e ∈ acc'.2, e ∈ acc.2 ∨ e = "sample" := by
  have ht : tcpEst ty = [.w "tcp-established"] := by
    cases ty
    · rfl
    · rfl
    · exact absurd rfl hty
  have hadd : ∀ l : List Tok, (∀ m ∈ acc.1 ++ [l], CondMatches p (.leaf m)) ↔
      (∀ m ∈ acc.1, CondMatches p (.leaf m)) ∧ CondMatches p (.leaf l) := by
    intro l
    rw [forall_app]
    simp
  simp only [knownOptions, List.mem_cons, List.not_mem_nil, or_false] at ho
  unfold optionStep at h
  rcases ho with rfl | rfl | rfl | rfl | rfl | rfl | rfl | rfl
  · rw [if_pos (by decide)] at h
    cases h
    refine ⟨by simp, fun e he => ?_⟩
    simpa using he
  · rw [if_neg (by decide), if_pos (by decide)] at h
    split at h
    next hc =>
      cases h
      refine ⟨?_, fun e he => .inl he⟩
      simp only
      rw [hadd, ht, leaf_flag _ (by simp), hp.coherent.est]
      simp
    next hc =>
      cases h
      refine ⟨?_, fun e he => .inl he⟩
      have : (∀ l ∈ acc.1, CondMatches p (.leaf l)) → p.hasOption "established" = true := by
        intro hq
        rw [hp.coherent.est]
        rcases he rfl with h1 | h1
        · have : [Tok.w "tcp-established"] ∈ acc.1 := by
            refine Classical.byContradiction fun hn => hc ⟨h1, hn⟩
          exact (leaf_flag "tcp-established" (by simp)).1 (hq _ this)
        · exact h1
      constructor
      · intro hq; exact ⟨hq, fun _ => this hq⟩
      · exact fun h => h.1
  · rw [if_neg (by decide), if_neg (by decide), if_pos (by decide)] at h
    split at h
    · simp only [Except.ok.injEq] at h
      subst h
      split
      next hm =>
        refine ⟨?_, fun e he => .inl he⟩
        constructor
        · intro hq
          rw [ht] at hm
          exact ⟨hq, fun _ => (leaf_flag "tcp-established" (by simp)).1 (hq _ hm)⟩
        · exact fun h => h.1
      next =>
        refine ⟨?_, fun e he => .inl he⟩
        simp only
        rw [hadd, ht, leaf_flag _ (by simp)]
        simp
    · cases h
  · rw [if_neg (by decide), if_neg (by decide), if_neg (by decide), if_pos (by decide)] at h
    cases h
    refine ⟨?_, fun e he => .inl he⟩
    simp only
    rw [hadd, leaf_rst]
    simp
  · rw [if_neg (by decide), if_neg (by decide), if_neg (by decide), if_neg (by decide)] at h
    split at h
    · cases h
      refine ⟨?_, fun e he => .inl he⟩
      simp only
      rw [hadd, leaf_flag _ (by simp), hp.initial]
      simp
    · rw [if_neg (by decide)] at h
      cases h
      refine ⟨?_, fun e he => .inl he⟩
      simp only
      rw [hadd, leaf_flag _ (by simp)]
      simp
  · rw [if_neg (by decide), if_neg (by decide), if_neg (by decide), if_neg (by decide),
      if_neg (by rw [show startsWith "initial" "tcp-initial" = false from by decide]; simp), if_neg (by decide)] at h
    cases h
    refine ⟨?_, fun e he => .inl he⟩
    simp only
    rw [hadd, leaf_flag _ (by simp)]
    simp
  · rw [if_neg (by decide), if_neg (by decide), if_neg (by decide), if_neg (by decide),
      if_neg (by rw [show startsWith "initial" "first-fragment" = false from by decide]; simp), if_pos (by decide)] at h
    cases h
    refine ⟨?_, fun e he => .inl he⟩
    simp only
    rw [hadd, leaf_flag _ (by simp)]
    simp
  · rw [if_neg (by decide), if_neg (by decide), if_neg (by decide), if_neg (by decide),
      if_neg (by rw [show startsWith "initial" "is-fragment" = false from by decide]; simp), if_neg (by decide)] at h
    cases h
    refine ⟨?_, fun e he => .inl he⟩
    simp only
    rw [hadd, leaf_flag _ (by simp)]
    simp

theorem options_spec {ty : TType} (hty : ty ≠ .bridge) {prot : List String} {p : Packet} (hp : Packets p) :
    ∀ {os : List String} {acc acc' : List (List Tok) × List String}, (∀ o ∈ os, o ∈ knownOptions) →
    ("established" ∈ os → prot = ["tcp"] ∨ p.hasOption "tcp-established" = true) →
    options ty prot acc os = .ok acc' →
    ((∀ l ∈ acc'.1, CondMatches p (.leaf l)) ↔
      (∀ l ∈ acc.1, CondMatches p (.leaf l)) ∧ ∀ o ∈ os, o ≠ "sample" → p.hasOption o = true) ∧
    ∀ e ∈ acc'.2, e ∈ acc.2 ∨ e = "sample"
  | [], acc, acc', _, _, h => by
    rw [options] at h
    cases h
    exact ⟨by simp, fun e he => .inl he⟩
  | o :: os, acc, acc', ho, he, h => by
    rw [options] at h
    obtain ⟨b, h1, h2⟩ := bind_ok h
    obtain ⟨s1, s2⟩ := optionStep_spec hty (ho o (by simp)) hp (fun e => he (by rw [← e]; simp)) h1
    obtain ⟨s3, s4⟩ := options_spec hty hp (fun o' h' => ho o' (by simp [h'])) (fun e => he (by simp [e])) h2
    refine ⟨?_, fun e he => ?_⟩
    · rw [s3, s1, and_assoc]
      simp
    · rcases s4 e he with h | h
      · exact s2 e h
      · exact .inr h

/-! ### actions -/

theorem argStmt_single {hd s X : String} : ([Tok.w X] ∈ argStmt hd s) ↔ False := by
  unfold argStmt opt
  split <;> simp

theorem manyActions_mem {ty : TType} {j : JTerm} {extra : List String} {l : List (List Tok)} {a s : String}
    (h : manyActions ty j extra = .ok l) (h1 : j.nextIp = []) (h2 : j.routing = "") (h3 : j.term.action = [a])
    (h4 : actionTable.lookup a = some s) (h5 : ∀ e ∈ extra, e = "sample") {X : String}
    (hX : X ∈ ["discard", "reject", "reject tcp-reset", "next term"]) : [Tok.w X] ∈ l ↔ s = X := by
  unfold manyActions at h
  rw [h1, h2, h3] at h
  have e : listM actionStmt [a] = .ok [[Tok.w s]] := by
    simp [listM, actionStmt, h4, bind, Except.bind]
  simp only [List.isEmpty_nil, Bool.not_true, Bool.false_eq_true, if_false, if_true] at h
  rw [e] at h
  simp only [bind, Except.bind, Except.ok.injEq] at h
  subst h
  have hXs : X ≠ "sample" ∧ X ≠ "log" ∧ X ≠ "syslog" ∧ X ≠ "port-mirror" := by revert X; decide
  obtain ⟨x1, x2, x3, x4⟩ := hXs
  have hlog : [Tok.w X] ∉ j.term.logging.map (fun l => [Tok.w (if l = "local" then "log" else "syslog")]) := by
    intro h
    obtain ⟨y, _, e⟩ := List.mem_map.1 h
    split at e
    · exact x2 (by simpa using e.symm)
    · exact x3 (by simpa using e.symm)
  have hex : [Tok.w X] ∉ extra.map (fun e => [Tok.w e]) := by
    intro h
    obtain ⟨y, hy, e⟩ := List.mem_map.1 h
    rw [h5 y hy] at e
    exact x1 (by simpa using e.symm)
  have hpm : [Tok.w X] ∉ opt j.term.portMirror [Tok.w "port-mirror"] := by
    unfold opt
    split
    · simpa using x4
    · simp
  simp only [List.mem_append, argStmt_single, hlog, hex, hpm, nextIpStmt, List.take_nil, List.map_nil,
    List.not_mem_nil, List.mem_singleton, false_or, or_false, List.cons.injEq, Tok.w.injEq, and_true]
  exact eq_comm

theorem eraseDups_single_mem {l : List String} {x a : String} (h : l.eraseDups = [x]) (ha : a ∈ l) : a = x := by
  have := List.mem_eraseDups.2 ha
  rw [h] at this
  simpa using this

/-- The `then` clause of a term with one action does what the action asks for. -/
theorem thenClause_spec {ty : TType} {j : JTerm} {extra : List String}
    {th : Option (Bool × List (List Tok))} {a : String}
    (h : thenClause ty j extra = .ok th) (h1 : j.nextIp = []) (h2 : j.routing = "") (h3 : j.term.action = [a])
    (h4 : a ∈ ["accept", "deny", "next", "reject", "reject-with-tcp-rst"]) (h5 : ∀ e ∈ extra, e = "sample")
    (d : Verdict) : verdict th = d ↔ Asks a d := by
  have hs : ∃ s, actionTable.lookup a = some s ∧ ∀ d, (verdict (some (true, [[Tok.w s]])) = d ↔ Asks a d) := by
    simp only [List.mem_cons, List.not_mem_nil, or_false] at h4
    rcases h4 with rfl | rfl | rfl | rfl | rfl <;> refine ⟨_, rfl, fun d => ?_⟩ <;>
      cases d <;> simp [verdict, Asks]
  obtain ⟨s, hs, hd⟩ := hs
  rw [← hd d]
  unfold thenClause at h
  obtain ⟨_, _, h⟩ := bind_ok h
  have hmem : a ∈ uniqueActions j extra := by
    unfold uniqueActions
    dsimp only
    rw [if_pos h2, h3]
    split
    · rw [List.mem_eraseDups]
      apply List.mem_append_left
      rw [List.mem_eraseDups]
      simp
    · rw [List.mem_eraseDups]
      simp
  split at h
  next e => rw [e] at hmem; cases hmem
  next x e =>
    rw [e] at hmem
    have hx : a = x := by simpa using hmem
    subst hx
    unfold oneAction at h
    rw [hs] at h
    dsimp only at h
    have hse : s ≠ "encapsulate" ∧ s ≠ "decapsulate" := by
      simp only [List.mem_cons, List.not_mem_nil, or_false] at h4
      rcases h4 with rfl | rfl | rfl | rfl | rfl <;> cases hs <;> decide
    rw [if_neg hse.1, if_neg hse.2] at h
    split at h <;> cases h <;> rfl
  next =>
    cases hl : manyActions ty j extra with
    | error e => rw [hl] at h; cases h
    | ok l =>
      rw [hl] at h
      cases h
      have hm : ∀ X ∈ ["discard", "reject", "reject tcp-reset", "next term"], ([Tok.w X] ∈ l ↔ s = X) :=
        fun X hX => manyActions_mem hl h1 h2 h3 hs h5 hX
      have : verdict (some (true, l)) = verdict (some (true, [[Tok.w s]])) := by
        unfold verdict
        simp only [hm "discard" (by simp), hm "reject" (by simp), hm "reject tcp-reset" (by simp),
          hm "next term" (by simp), List.mem_singleton, List.cons.injEq, Tok.w.injEq, and_true, eq_comm]
      rw [this]

end Juniper
end Verif
