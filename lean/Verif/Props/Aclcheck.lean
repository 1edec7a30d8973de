import Verif.Lemmas.Aclcheck
import Verif.Props.Port

/-!
Property theorems C30, C31, C53: capirca/lib/aclcheck.py.
-/

namespace Verif.Props
open Verif Verif.Spec Verif.Policy Verif.Aclcheck

/-- C30: for every filter aclcheck reports, in order, exactly the hits up to and including the first one
that is certain and terminal, and that one is the exact match. -/
theorem C30_report {q : Query} (hq : QWF q) {fs : List (Header × List Term)} (hw : ∀ f ∈ fs, ∀ t ∈ f.2, TWF t)
    {ms es : List Match} (h : check q fs = .ok (ms, es)) :
    ∃ rep : List (String × List Term × Option Term),
      All₂ (fun f r => filterName f.1 = .ok r.1 ∧ Report q f.2 r.2.1 r.2.2) fs rep ∧
      ms = rep.flatMap (fun r => r.2.1.map fun t => mkMatch r.1 t (possibleMatch t)) ∧
      es = rep.flatMap (fun r => r.2.2.toList.map fun t => mkMatch r.1 t []) := by
  induction fs generalizing ms es with
  | nil => cases h; exact ⟨[], .nil, rfl, rfl⟩
  | cons f fs ih =>
    obtain ⟨hd, ts⟩ := f
    rw [check] at h
    obtain ⟨n, hn, h⟩ := bind_ok h
    obtain ⟨⟨ms', es'⟩, hr, h⟩ := bind_ok h
    obtain ⟨rep, h1, h2, h3⟩ := ih (fun f hf => hw f (List.mem_cons_of_mem _ hf)) hr
    obtain ⟨rs, d, g1, g2⟩ := checkTerms_report hq n (hw _ (List.mem_cons_self ..))
    rw [g2] at h
    cases h
    exact ⟨(n, rs, d) :: rep, .cons ⟨hn, g1⟩ h1, by rw [h2]; rfl, by rw [h3]; rfl⟩

/-- C30: a match is reported as only possible exactly if the term is uncertain. -/
theorem C30_possible (f : String) (t : Term) : (mkMatch f t (possibleMatch t)).possibles = [] ↔ ¬ Uncertain t := by
  rw [← possible_iff, List.isEmpty_iff]; rfl

/-- C30: the report is determined by the query and the terms. -/
theorem C30_unique {q : Query} {ts rs rs' : List Term} {d d' : Option Term} (h : Report q ts rs d)
    (h' : Report q ts rs' d') : rs = rs' ∧ d = d' := report_unique h h'

/-- C30: aclcheck fails only with an `IndexError`, exactly if some filter has no name. -/
theorem C30_fails (q : Query) (fs : List (Header × List Term)) :
    (∃ r, check q fs = .ok r) ∨ (check q fs = .error .indexError ∧ ∃ f ∈ fs, ∀ n, filterName f.1 ≠ .ok n) := by
  induction fs with
  | nil => exact .inl ⟨_, rfl⟩
  | cons f fs ih =>
    obtain ⟨h, ts⟩ := f
    rw [check]
    cases hn : filterName h with
    | error e =>
      have : e = .indexError := by
        unfold filterName at hn
        split at hn
        · cases hn
        · cases hn; rfl
      subst this
      exact .inr ⟨rfl, (h, ts), List.mem_cons_self .., fun n h => by rw [hn] at h; cases h⟩
    | ok n =>
      rcases ih with ⟨r, hr⟩ | ⟨he, f, hf, hf'⟩
      · rw [hr]; exact .inl ⟨_, rfl⟩
      · rw [he]; exact .inr ⟨rfl, f, List.mem_cons_of_mem _ hf, hf'⟩

/-- C30 (partial): a term that matches a packet described by a query for single addresses is a hit: no
matching term is passed over. For networks this is false (`C30_refuted`). -/
theorem C30_no_miss_partial {q : Query} (hq : HostQuery q) {t : Term} {p : Packet} (hd : Described q p)
    (ha : t.action ≠ []) (hp : q.proto = "any" → "any" ∉ t.protocolExcept) (hm : Matches t p) : Hit q t :=
  matches_hit hq hd ha hp hm

/-- C30 (partial): for a query that gives single addresses, ports and a protocol, and a packet it
describes, the exact match of a filter is the term that decides about the packet - if the certain terms
use only the conditions aclcheck looks at and the packet does not match the uncertain ones. -/
theorem C30_first_match_partial {q : Query} (hq : HostQuery q) (hf : FullQuery q) {ts rs : List Term}
    {d : Option Term} (h : Report q ts rs d) {p : Packet} (hd : Described q p)
    (ha : ∀ t ∈ ts, t.action ≠ []) (hi : ∀ t ∈ ts, ¬ Uncertain t → Inspected t)
    (hu : ∀ t ∈ rs, Uncertain t → ¬ Matches t p) (u : Term) : d = some u ↔ FirstMatch ts p u := by
  have cons : ∀ {t : Term} {ts : List Term}, ¬ (Matches t p ∧ Terminal t) → (FirstMatch (t :: ts) p u ↔ FirstMatch ts p u) := by
    intro t ts hn
    constructor
    · rintro ⟨a, b, h1, h2, h3, h4⟩
      cases a with
      | nil => cases h1; exact absurd ⟨h2, h3⟩ hn
      | cons x xs => cases h1; exact ⟨xs, b, rfl, h2, h3, fun s hs => h4 s (List.mem_cons_of_mem _ hs)⟩
    · rintro ⟨a, b, rfl, h2, h3, h4⟩
      refine ⟨t :: a, b, rfl, h2, h3, fun s hs => ?_⟩
      rcases List.mem_cons.1 hs with rfl | hs
      · exact hn
      · exact h4 s hs
  have np : ∀ t : Term, q.proto = "any" → "any" ∉ t.protocolExcept := fun t h => absurd h hf.2.2.2.2
  induction h with
  | nil =>
    constructor
    · intro h; cases h
    · rintro ⟨a, b, h, _⟩; cases a <;> cases h
  | @skip t ts rs d hn _ ih =>
    refine (ih (fun t ht => ha t (List.mem_cons_of_mem _ ht)) (fun t ht => hi t (List.mem_cons_of_mem _ ht)) hu).trans
      (cons ?_).symm
    exact fun hm => hn (matches_hit hq hd (ha t (List.mem_cons_self ..)) (np t) hm.1)
  | @more t ts rs d hh hc _ ih =>
    refine (ih (fun t ht => ha t (List.mem_cons_of_mem _ ht)) (fun t ht => hi t (List.mem_cons_of_mem _ ht))
      (fun t ht => hu t (List.mem_cons_of_mem _ ht))).trans (cons ?_).symm
    rintro ⟨hm, ht⟩
    rcases hc with hc | hc
    · exact hu t (List.mem_cons_self ..) hc hm
    · exact hc ht
  | @stop t ts hh hc ht =>
    have hm := hit_matches hf hd (hi t (List.mem_cons_self ..) hc) hh
    constructor
    · intro h; cases h
      exact ⟨[], ts, rfl, hm, ht, fun s hs => (by cases hs)⟩
    · rintro ⟨a, b, h1, h2, h3, h4⟩
      cases a with
      | nil => cases h1; rfl
      | cons x xs => cases h1; exact absurd ⟨hm, ht⟩ (h4 _ (List.mem_cons_self ..))

/-- C31 (partial): the exact match of a filter, like every reported term, holds all addresses of the
query in its source and destination addresses, unless it has none. Excluded addresses and the
either-direction address are not looked at (`C31_refuted`). -/
theorem C31_addresses_partial {q : Query} {ts rs : List Term} {d : Option Term} (h : Report q ts rs d) :
    (∀ u, d = some u → u ∈ rs) ∧ ∀ t ∈ rs, t ∈ ts ∧ ∀ v x,
      (∀ n, q.src = some n → Mem n v x → t.sourceAddress = [] ∨ Den t.sourceAddress v x) ∧
      (∀ n, q.dst = some n → Mem n v x → t.destinationAddress = [] ∨ Den t.destinationAddress v x) := by
  have hit : ∀ {t}, Hit q t → ∀ v x,
      (∀ n, q.src = some n → Mem n v x → t.sourceAddress = [] ∨ Den t.sourceAddress v x) ∧
      (∀ n, q.dst = some n → Mem n v x → t.destinationAddress = [] ∨ Den t.destinationAddress v x) := by
    intro t ht v x
    exact ⟨fun n hn hm => (ht.1 n hn).imp id fun ⟨a, ha, h⟩ => ⟨a, ha, h _ _ hm⟩,
      fun n hn hm => (ht.2.1 n hn).imp id fun ⟨a, ha, h⟩ => ⟨a, ha, h _ _ hm⟩⟩
  induction h with
  | nil => exact ⟨fun u h => (by cases h), fun t h => (by cases h)⟩
  | skip _ _ ih => exact ⟨ih.1, fun t ht => ⟨List.mem_cons_of_mem _ (ih.2 t ht).1, (ih.2 t ht).2⟩⟩
  | more hh _ _ ih =>
    refine ⟨fun u hu => List.mem_cons_of_mem _ (ih.1 u hu), fun t ht => ?_⟩
    rcases List.mem_cons.1 ht with rfl | ht
    · exact ⟨List.mem_cons_self .., hit hh⟩
    · exact ⟨List.mem_cons_of_mem _ (ih.2 t ht).1, (ih.2 t ht).2⟩
  | stop hh _ _ =>
    refine ⟨fun u hu => (by cases hu; exact List.mem_cons_self ..), fun t ht => ?_⟩
    rw [List.mem_singleton] at ht; subst ht
    exact ⟨List.mem_cons_self .., hit hh⟩

/-- C30, C31: the arguments are rejected exactly as documented: a port that is no number or out of range,
then an address that does not parse. -/
theorem C30_arguments (ip : Str → Option Net) (src dst sport dport : Str) (proto : String) (q : Query) :
    mkQuery ip src dst sport dport proto = .ok q ↔
      (q.proto = proto ∧
       (if sport = "any".toList then q.sport = none else ∃ v, q.sport = some v ∧ IntText sport v ∧ 0 ≤ v ∧ v ≤ 65535) ∧
       (if dport = "any".toList then q.dport = none else ∃ v, q.dport = some v ∧ IntText dport v ∧ 0 ≤ v ∧ v ≤ 65535) ∧
       (if src = "any".toList then q.src = none else ∃ n, q.src = some n ∧ ip src = some n) ∧
       (if dst = "any".toList then q.dst = none else ∃ n, q.dst = some n ∧ ip dst = some n)) := by
  have hp : ∀ (s : Str) (o : Option Int), queryPort s = .ok o ↔
      if s = "any".toList then o = none else ∃ v, o = some v ∧ IntText s v ∧ 0 ≤ v ∧ v ≤ 65535 := by
    intro s o
    unfold queryPort
    by_cases hs : s = "any".toList
    · rw [if_pos hs, if_pos (by simpa using hs)]
      constructor
      · intro h; cases h; rfl
      · rintro rfl; rfl
    · rw [if_neg hs, if_neg (by simpa using hs)]
      constructor
      · intro h
        split at h
        next v hv => cases h; exact ⟨v, rfl, (C27_port_text s v).1 hv⟩
        · cases h
      · rintro ⟨v, rfl, hv⟩
        rw [(C27_port_text s v).2 hv]
  have ha : ∀ (s : Str) (o : Option Net), queryAddr ip s = .ok o ↔
      if s = "any".toList then o = none else ∃ n, o = some n ∧ ip s = some n := by
    intro s o
    unfold queryAddr
    by_cases hs : s = "any".toList
    · rw [if_pos hs, if_pos (by simpa using hs)]
      constructor
      · intro h; cases h; rfl
      · rintro rfl; rfl
    · rw [if_neg hs, if_neg (by simpa using hs)]
      constructor
      · intro h
        split at h
        next v hv => cases h; exact ⟨v, rfl, hv⟩
        · cases h
      · rintro ⟨v, rfl, hv⟩
        rw [hv]
  rw [← hp, ← hp, ← ha, ← ha]
  unfold mkQuery
  constructor
  · intro h
    obtain ⟨a, h1, h⟩ := bind_ok h
    obtain ⟨b, h2, h⟩ := bind_ok h
    obtain ⟨c, h3, h⟩ := bind_ok h
    obtain ⟨e, h4, h⟩ := bind_ok h
    cases h
    exact ⟨rfl, h1, h2, h3, h4⟩
  · rintro ⟨h0, h1, h2, h3, h4⟩
    rw [h1, h2, h3, h4, ← h0]
    rfl

/-- C53 (partial): `ActionMatch(action)` keeps, in order, the certain matches whose action contains the
given text; for `'any'` all of them. It should keep those whose action is the given one
(`C53_refuted`). -/
theorem C53_action_partial (action : String) (ms : List Match) (hne : ∀ m ∈ ms, m.action ≠ "") :
    (actionMatch action ms).Sublist ms ∧ ∀ m, m ∈ actionMatch action ms ↔
      m ∈ ms ∧ m.possibles = [] ∧ (action = "any" ∨ ∃ a b, m.action.toList = a ++ action.toList ++ b) := by
  refine ⟨List.filter_sublist, fun m => ?_⟩
  unfold actionMatch isInfix
  rw [List.mem_filter]
  simp only [Bool.and_eq_true, bne_iff_ne, ne_eq, List.isEmpty_iff, Bool.or_eq_true, beq_iff_eq, decide_eq_true_eq]
  constructor
  · rintro ⟨h1, ⟨_, h2⟩, h3⟩
    exact ⟨h1, h2, h3.imp id fun ⟨a, b, h⟩ => ⟨a, b, h.symm⟩⟩
  · rintro ⟨h1, h2, h3⟩
    exact ⟨h1, ⟨hne m h1, h2⟩, h3.imp id fun ⟨a, b, h⟩ => ⟨a, b, h.symm⟩⟩

/-! ### examples and refutations -/

private def ten : Net := { ver := .v4, addr := 10 * 2 ^ 24, plen := 8 }
private def tenOne : Net := { ver := .v4, addr := 10 * 2 ^ 24 + 2 ^ 16, plen := 16 }
private def host : Net := { ver := .v4, addr := 10 * 2 ^ 24 + 2 ^ 16 + 1, plen := 32 }
private def other : Net := { ver := .v4, addr := 192 * 2 ^ 24, plen := 32 }

/-- `10.0.0.0/8` except `10.1.0.0/16` is denied, the rest accepted. -/
def exTerms : List Term :=
  [{ name := "tcp-est".toList, action := ["accept"], option := ["tcp-established"], protocol := ["tcp"] },
   { name := "ten".toList, action := ["deny"], sourceAddress := [ten], sourceAddressExclude := [tenOne] },
   { name := "rest".toList, action := ["accept"] }]

/-- A query for one address. -/
def exQuery : Query := { src := some host, dst := some other, sport := some 1024, dport := some 80, proto := "tcp" }

theorem exQuery_wf : QWF exQuery :=
  ⟨fun n h => (by cases h; exact ⟨by decide, by decide, by decide⟩), fun n h => (by cases h; exact ⟨by decide, by decide, by decide⟩)⟩

example : HostQuery exQuery ∧ FullQuery exQuery :=
  ⟨⟨fun n h => (by cases h; rfl), fun n h => (by cases h; rfl)⟩, ⟨_, rfl⟩, ⟨_, rfl⟩, ⟨_, rfl⟩, ⟨_, rfl⟩, by decide⟩

theorem exTerms_wf : ∀ t ∈ exTerms, TWF t := by
  have w : WF ten := ⟨by decide, by decide, by decide⟩
  intro t ht
  simp only [exTerms, List.mem_cons, List.not_mem_nil, or_false] at ht
  rcases ht with rfl | rfl | rfl
  · exact ⟨fun n h => (by cases h), fun n h => (by cases h)⟩
  · exact ⟨fun n h => (by rw [List.mem_singleton] at h; subst h; exact w), fun n h => (by cases h)⟩
  · exact ⟨fun n h => (by cases h), fun n h => (by cases h)⟩

example : check exQuery [({ target := [("juniper", ["f", "inet"])] }, exTerms)] =
    .ok ([⟨"f", "tcp-est".toList, ["tcp-est"], "accept"⟩, ⟨"f", "ten".toList, [], "deny"⟩],
      [⟨"f", "ten".toList, [], "deny"⟩]) := by decide

/-- The packet of the query. -/
def exPacket : Packet := { src := host.addr, dst := other.addr, sport := 1024, dport := 80, proto := "tcp" }

example : Described exQuery exPacket :=
  ⟨fun n h => (by cases h; exact ⟨rfl, by decide, by decide⟩), fun n h => (by cases h; exact ⟨rfl, by decide, by decide⟩),
    fun n h => (by cases h; rfl), fun n h => (by cases h; rfl), fun _ => rfl⟩

/-- The last term uses only inspected conditions; after the uncertain term it is the exact match. -/
example : Inspected { name := "rest".toList, action := ["accept"] } ∧
    ∃ rs, Report exQuery [{ name := "tcp-est".toList, action := ["accept"], option := ["tcp-established"], protocol := ["tcp"] },
      { name := "rest".toList, action := ["accept"] }] rs (some { name := "rest".toList, action := ["accept"] }) := by
  refine ⟨⟨⟨rfl, rfl, rfl, rfl⟩, rfl, fun p => ?_, fun p => ?_, fun p => ?_⟩, _, .more ?_ (.inl ?_) (.stop ?_ ?_ ?_)⟩
  · simp [MatchPrefixes, OneOf]
  · simp [MatchMisc, OneOf, RangeMatch]
  · simp [MatchRest, OneOf]
  · simp [Hit, AddrFits, PortFits, OneOf, exQuery]
  · simp [Uncertain]
  · simp [Hit, AddrFits, PortFits, OneOf, exQuery]
  · simp [Uncertain]
  · simp [Terminal]

/-- C31 is false: the exact match is a term whose excluded addresses contain the source. -/
theorem C31_refuted : ∃ (q : Query) (ts : List Term) (u : Term) (m : Match) (n : Net),
    (∀ t ∈ ts, TWF t) ∧ QWF q ∧ HostQuery q ∧ check q [({ target := [("juniper", ["f"])] }, ts)] = .ok ([m], [m]) ∧
    u ∈ ts ∧ m.term = u.name ∧ q.src = some n ∧
    ∀ v x, Mem n v x → ¬ AddrMatch u.sourceAddress u.sourceAddressExclude v x := by
  refine ⟨exQuery, exTerms.drop 1, exTerms[1], ⟨"f", "ten".toList, [], "deny"⟩, host,
    fun t ht => exTerms_wf t (List.mem_of_mem_drop ht), exQuery_wf,
    ⟨fun n h => (by cases h; rfl), fun n h => (by cases h; rfl)⟩, by decide, by simp [exTerms], by simp [exTerms], rfl, ?_⟩
  rintro v x ⟨rfl, h1, h2⟩ ⟨_, h⟩
  refine h ⟨tenOne, List.mem_singleton.2 rfl, rfl, ?_, ?_⟩
  · exact Nat.le_trans (by decide) h1
  · exact Nat.lt_of_lt_of_le h2 (by decide)

/-- C30 is false in two ways. A term that matches some of the packets of a query for a network is not
reported; and because excluded addresses are ignored, the term that decides about the queried packet is
not reported. -/
theorem C30_refuted :
    (∃ (q : Query) (ts : List Term) (t : Term) (p : Packet), (∀ t ∈ ts, TWF t) ∧ QWF q ∧
      check q [({ target := [("juniper", ["f"])] }, ts)] = .ok ([], []) ∧ t ∈ ts ∧ Described q p ∧ Matches t p) ∧
    (∃ (q : Query) (ts : List Term) (u : Term) (p : Packet) (m : Match), (∀ t ∈ ts, TWF t) ∧ QWF q ∧ HostQuery q ∧
      FullQuery q ∧ check q [({ target := [("juniper", ["f"])] }, ts)] = .ok ([m], [m]) ∧ Described q p ∧
      FirstMatch ts p u ∧ m.term ≠ u.name) := by
  have any : ∀ p, Matches { name := "rest".toList, action := ["accept"] } p := by
    intro p
    simp [Matches, MatchAddrs, MatchPorts, MatchProto, MatchPrefixes, MatchMisc, MatchRest, AddrMatch, PortMatch, OneOf,
      RangeMatch, Den]
  constructor
  · refine ⟨{ src := some ten }, [{ name := "one".toList, action := ["deny"], sourceAddress := [tenOne] }], _,
      { src := host.addr }, ?_, ?_, by decide, List.mem_singleton.2 rfl, ?_, ?_⟩
    · intro t ht
      rw [List.mem_singleton] at ht; subst ht
      exact ⟨fun n h => (by rw [List.mem_singleton] at h; subst h; exact ⟨by decide, by decide, by decide⟩),
        fun n h => (by cases h)⟩
    · exact ⟨fun n h => (by cases h; exact ⟨by decide, by decide, by decide⟩), fun n h => (by cases h)⟩
    · exact ⟨fun n h => (by cases h; exact ⟨rfl, by decide, by decide⟩), fun n h => (by cases h),
        fun n h => (by cases h), fun n h => (by cases h), fun h => absurd rfl h⟩
    · have : Mem tenOne .v4 host.addr := ⟨rfl, by decide, by decide⟩
      simp [Matches, MatchAddrs, MatchPorts, MatchProto, MatchPrefixes, MatchMisc, MatchRest, AddrMatch, PortMatch,
        OneOf, RangeMatch, Den, this]
  · refine ⟨exQuery, exTerms.drop 1, { name := "rest".toList, action := ["accept"] }, exPacket,
      ⟨"f", "ten".toList, [], "deny"⟩, fun t ht => exTerms_wf t (List.mem_of_mem_drop ht), exQuery_wf,
      ⟨fun n h => (by cases h; rfl), fun n h => (by cases h; rfl)⟩,
      ⟨⟨_, rfl⟩, ⟨_, rfl⟩, ⟨_, rfl⟩, ⟨_, rfl⟩, by decide⟩, by decide, ?_, ?_, by decide⟩
    · exact ⟨fun n h => (by cases h; exact ⟨rfl, by decide, by decide⟩), fun n h => (by cases h; exact ⟨rfl, by decide, by decide⟩),
        fun n h => (by cases h; rfl), fun n h => (by cases h; rfl), fun _ => rfl⟩
    · refine ⟨[exTerms[1]], [], rfl, any _, (by decide : "next" ∉ ["accept"]), ?_⟩
      intro s hs
      rw [List.mem_singleton] at hs; subst hs
      rintro ⟨⟨⟨_, ⟨_, h⟩, _⟩, _⟩, _⟩
      exact h ⟨tenOne, List.mem_singleton.2 rfl, rfl, by decide, by decide⟩

/-- C53 is false: `ActionMatch('reject')` also returns matches whose action is `reject-with-tcp-rst`. -/
theorem C53_refuted : ∃ ms m, m ∈ actionMatch "reject" ms ∧ m.action ≠ "reject" :=
  ⟨[⟨"f", "t".toList, [], "reject-with-tcp-rst"⟩], ⟨"f", "t".toList, [], "reject-with-tcp-rst"⟩, by decide, by decide⟩

end Verif.Props
