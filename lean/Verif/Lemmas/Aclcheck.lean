import Verif.Spec.Aclcheck
import Verif.Lemmas.Net
import Verif.Lemmas.Translate

namespace Verif
open Spec Policy Aclcheck

theorem addrInside_iff {q : Option Net} {l : List Net} (hq : ∀ n, q = some n → WF n) (hl : ∀ n ∈ l, WF n) :
    addrInside q l = true ↔ AddrFits q l := by
  unfold AddrFits addrInside
  cases q with
  | none => simp
  | some n =>
    simp only [Bool.or_eq_true, List.isEmpty_iff, List.any_eq_true, Option.some.injEq]
    constructor
    · rintro h m rfl
      rcases h with h | ⟨a, ha, h⟩
      · exact .inl h
      · exact .inr ⟨a, ha, (subnetOf_iff (hq n rfl) (hl a ha)).1 h⟩
    · intro h
      rcases h n rfl with h | ⟨a, ha, h⟩
      · exact .inl h
      · exact .inr ⟨a, ha, (subnetOf_iff (hq n rfl) (hl a ha)).2 h⟩

theorem portFits_iff {q : Option Int} {l : List (Nat × Nat)} : portFits q l = true ↔ PortFits q l := by
  unfold portFits PortFits portInside
  cases q with
  | none => simp
  | some i =>
    simp only [Bool.or_eq_true, List.isEmpty_iff, List.any_eq_true, Bool.and_eq_true, decide_eq_true_eq,
      Option.some.injEq]
    constructor
    · rintro h _ rfl; exact h
    · intro h; exact h i rfl

/-- query and terms hold well-formed networks -/
structure QWF (q : Query) : Prop where
  src : ∀ n, q.src = some n → WF n
  dst : ∀ n, q.dst = some n → WF n

/-- the addresses of the term are well formed -/
structure TWF (t : Term) : Prop where
  src : ∀ n ∈ t.sourceAddress, WF n
  dst : ∀ n ∈ t.destinationAddress, WF n

theorem admits_iff {q : Query} {t : Term} (hq : QWF q) (ht : TWF t) : admits q t = true ↔ Hit q t := by
  unfold admits Hit OneOf
  simp only [Bool.and_eq_true, addrInside_iff hq.src ht.src, addrInside_iff hq.dst ht.dst, portFits_iff,
    Bool.or_eq_true, beq_iff_eq, List.isEmpty_iff, List.contains_iff_mem, Bool.not_eq_true', and_assoc,
    or_assoc]
  have h1 : (!t.protocolExcept.isEmpty && t.protocolExcept.contains q.proto) = false ↔ q.proto ∉ t.protocolExcept := by
    rw [← Bool.not_eq_true, Bool.and_eq_true, List.contains_iff_mem]
    constructor
    · intro h hm
      refine h ⟨?_, hm⟩
      cases hp : t.protocolExcept with
      | nil => rw [hp] at hm; cases hm
      | cons => rfl
    · exact fun h hh => h hh.2
  have h2 : t.action.isEmpty = false ↔ t.action ≠ [] := by cases t.action <;> simp
  rw [h1, h2]

theorem possible_iff {t : Term} : (possibleMatch t).isEmpty = true ↔ ¬ Uncertain t := by
  unfold possibleMatch Uncertain
  rw [List.isEmpty_iff]
  simp only [List.append_eq_nil_iff, not_or]
  have e : ∀ {b : Bool} {s : String}, (if b = true then [s] else []) = [] ↔ b = false := by
    intro b s; cases b <;> simp
  rw [e, e, e, e, e]
  have c : ∀ {l : List String} {s : String}, l.contains s = false ↔ s ∉ l := by
    intro l s; rw [← Bool.not_eq_true, List.contains_iff_mem]
  have n : ∀ {l : List Nat}, (!l.isEmpty) = false ↔ ¬ l ≠ [] := by intro l; cases l <;> simp
  rw [c, n, n, c, ← Bool.not_eq_true (_ && _), Bool.and_eq_true, List.contains_iff_mem, List.contains_iff_mem]
  simp only [and_assoc]

theorem next_iff {t : Term} : t.action.contains "next" = true ↔ ¬ Terminal t := by
  unfold Terminal
  rw [List.contains_iff_mem, Classical.not_not]

/-- the report of the loop -/
theorem checkTerms_report {q : Query} (hq : QWF q) (f : String) : ∀ {ts : List Term}, (∀ t ∈ ts, TWF t) →
    ∃ rs d, Report q ts rs d ∧ checkTerms q f ts =
      (rs.map (fun t => mkMatch f t (possibleMatch t)), d.toList.map (fun t => mkMatch f t []))
  | [], _ => ⟨[], none, .nil, rfl⟩
  | t :: ts, h => by
    obtain ⟨rs, d, h1, h2⟩ := checkTerms_report hq f (ts := ts) (fun t ht => h t (List.mem_cons_of_mem _ ht))
    have ha := admits_iff hq (h t (List.mem_cons_self ..))
    rw [checkTerms]
    rcases Classical.em (Hit q t) with hh | hh
    · have := ha.2 hh
      rw [this]
      simp only [Bool.not_true, Bool.false_eq_true, if_false]
      rcases Classical.em (Uncertain t ∨ ¬ Terminal t) with hu | hu
      · have : (!(possibleMatch t).isEmpty || t.action.contains "next") = true := by
          rw [Bool.or_eq_true, next_iff]
          refine hu.imp (fun hu => ?_) id
          cases he : (possibleMatch t).isEmpty with
          | false => rfl
          | true => exact absurd hu (possible_iff.1 he)
        rw [this, if_pos rfl, h2]
        exact ⟨t :: rs, d, .more hh hu h1, rfl⟩
      · rw [not_or, Classical.not_not] at hu
        have : (!(possibleMatch t).isEmpty || t.action.contains "next") = false := by
          rw [Bool.or_eq_false_iff, possible_iff.2 hu.1]
          refine ⟨rfl, ?_⟩
          rw [← Bool.not_eq_true, next_iff, Classical.not_not]; exact hu.2
        rw [this, if_neg (by simp)]
        exact ⟨[t], some t, .stop hh hu.1 hu.2, rfl⟩
    · have : admits q t = false := by rw [← Bool.not_eq_true, ha]; exact hh
      rw [this]
      simp only [Bool.not_false, if_true]
      exact ⟨rs, d, .skip hh h1, h2⟩

theorem report_unique {q : Query} {ts rs rs' : List Term} {d d' : Option Term} (h : Report q ts rs d)
    (h' : Report q ts rs' d') : rs = rs' ∧ d = d' := by
  induction h generalizing rs' d' with
  | nil => cases h'; exact ⟨rfl, rfl⟩
  | skip hn _ ih =>
    cases h' with
    | skip _ h => exact ih h
    | more hh _ _ => exact absurd hh hn
    | stop hh _ _ => exact absurd hh hn
  | more hh hu _ ih =>
    cases h' with
    | skip hn _ => exact absurd hh hn
    | more _ _ h => obtain ⟨rfl, rfl⟩ := ih h; exact ⟨rfl, rfl⟩
    | stop _ h1 h2 => exact absurd hu (by rw [not_or, Classical.not_not]; exact ⟨h1, h2⟩)
  | stop hh h1 h2 =>
    cases h' with
    | skip hn _ => exact absurd hh hn
    | more _ hu _ => exact absurd hu (by rw [not_or, Classical.not_not]; exact ⟨h1, h2⟩)
    | stop _ _ _ => exact ⟨rfl, rfl⟩

/-- a query for single addresses -/
def HostQuery (q : Query) : Prop :=
  (∀ n, q.src = some n → n.plen = n.ver.bits) ∧ (∀ n, q.dst = some n → n.plen = n.ver.bits)

theorem host_single {n : Net} (h : n.plen = n.ver.bits) {v v' : Ver} {x y : Nat} (hx : Mem n v x) (hy : Mem n v' y) :
    v = v' ∧ x = y := by
  obtain ⟨h1, h2, h3⟩ := hx
  obtain ⟨h4, h5, h6⟩ := hy
  rw [h, Nat.sub_self] at h3 h6
  simp at h3 h6
  exact ⟨h1 ▸ h4, by omega⟩

theorem matches_hit {q : Query} (hq : HostQuery q) {t : Term} {p : Packet} (hd : Described q p)
    (ha : t.action ≠ []) (hp : q.proto = "any" → "any" ∉ t.protocolExcept) (hm : Matches t p) : Hit q t := by
  obtain ⟨d1, d2, d3, d4, d5⟩ := hd
  obtain ⟨⟨_, ⟨s1, _⟩, ⟨s2, _⟩⟩, ⟨_, p1, p2⟩, ⟨r1, r2⟩, _⟩ := hm
  have addr : ∀ {qa : Option Net} {l : List Net} {x : Nat}, (∀ n, qa = some n → n.plen = n.ver.bits) →
      QAddr qa p.ver x → (l = [] ∨ Den l p.ver x) → AddrFits qa l := by
    intro qa l x hh hqa hl n hn
    refine hl.imp id ?_
    rintro ⟨a, ha, hm⟩
    refine ⟨a, ha, fun v y hy => ?_⟩
    obtain ⟨rfl, rfl⟩ := host_single (hh n hn) (hqa n hn) hy
    exact hm
  have port : ∀ {qp : Option Int} {l : List (Nat × Nat)} {x : Nat}, QPort qp x → PortMatch l x → PortFits qp l := by
    intro qp l x hqp hl i hi
    have := hqp i hi
    refine hl.imp id ?_
    rintro ⟨r, hr, h1, h2⟩
    exact ⟨r, hr, by omega, by omega⟩
  refine ⟨addr hq.1 d1 s1, addr hq.2 d2 s2, port d3 p1, port d4 p2, ?_, ?_, ha⟩
  · rcases Classical.em (q.proto = "any") with h | h
    · exact .inl h
    · rw [d5 h] at r1; exact .inr r1
  · rcases Classical.em (q.proto = "any") with h | h
    · rw [h]; exact hp h
    · rw [d5 h] at r2; exact r2

/-- a query that gives every field -/
def FullQuery (q : Query) : Prop :=
  (∃ n, q.src = some n) ∧ (∃ n, q.dst = some n) ∧ (∃ i, q.sport = some i) ∧ (∃ i, q.dport = some i) ∧ q.proto ≠ "any"

theorem hit_matches {q : Query} (hq : FullQuery q) {t : Term} {p : Packet} (hd : Described q p)
    (hi : Inspected t) (hh : Hit q t) : Matches t p := by
  obtain ⟨⟨ns, hs⟩, ⟨nd, hdd⟩, ⟨is, hsp⟩, ⟨id', hdp⟩, hpr⟩ := hq
  obtain ⟨d1, d2, d3, d4, d5⟩ := hd
  obtain ⟨h1, h2, h3, h4, h5, h6, _⟩ := hh
  refine ⟨⟨.inl ⟨hi.addr.1, hi.addr.2.1⟩, ⟨?_, ?_⟩, ⟨?_, ?_⟩⟩, ⟨.inl hi.port, ?_, ?_⟩, ⟨?_, ?_⟩, hi.pref p, hi.misc p, hi.rest p⟩
  · exact (h1 ns hs).imp id fun ⟨a, ha, hm⟩ => ⟨a, ha, hm _ _ (d1 ns hs)⟩
  · rw [hi.addr.2.2.1]; rintro ⟨n, hn, _⟩; cases hn
  · exact (h2 nd hdd).imp id fun ⟨a, ha, hm⟩ => ⟨a, ha, hm _ _ (d2 nd hdd)⟩
  · rw [hi.addr.2.2.2]; rintro ⟨n, hn, _⟩; cases hn
  · have := d3 is hsp
    exact (h3 is hsp).imp id fun ⟨r, hr, a, b⟩ => ⟨r, hr, by omega, by omega⟩
  · have := d4 id' hdp
    exact (h4 id' hdp).imp id fun ⟨r, hr, a, b⟩ => ⟨r, hr, by omega, by omega⟩
  · rw [d5 hpr]; exact h5.resolve_left hpr
  · rw [d5 hpr]; exact h6

end Verif
