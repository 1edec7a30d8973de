import Verif.Spec.Packetfilter
import Verif.Lemmas.Iface
import Verif.Lemmas.Flat
import Verif.Lemmas.FirstMatch
import Verif.Lemmas.IptablesTerm

/-!
Properties of the model of capirca/lib/packetfilter.py: C92 to C95.
-/

namespace Verif.Props
open Verif Verif.Spec Verif.Spec.Packetfilter Verif.Packetfilter Policy Aclgenerator Nacaddr Lemmas

/-- The terms that are rendered faithfully in a filter with the options. For what happens without the conditions beyond the
tool's own checks, see the refutations. -/
structure PfFits (options : List String) (g : PTerm) : Prop where
  keywords : initCheck Packetfilter.tables [(["packetfilter"], [kterm g.term])] = .ok ()
  action : ∃ w ∈ ["accept", "deny", "reject", "next"], g.term.action = [w]
  family : g.term.restrictAddressFamily = none
  untagged : Untagged g.term
  srcAll : g.term.sourceAddressExclude = []
  dstAll : g.term.destinationAddressExclude = []
  protos : ∀ s ∈ g.term.protocol, s ∈ iana.map Prod.fst ∧ s ≠ "fragment"
  ports : g.term.sourcePort ≠ [] ∨ g.term.destinationPort ≠ [] →
    g.term.protocol ≠ [] ∧ ∀ s ∈ g.term.protocol, s ∈ ["tcp", "udp"]
  est : "established" ∈ g.term.option ∨ "tcp-established" ∈ g.term.option →
    g.term.protocol ≠ [] ∧ ∀ s ∈ g.term.protocol, s ∈ ["tcp", "udp"]
  sides : DirectionIs options "in" ∨ g.term.sourceInterface = none
  sides' : DirectionIs options "out" ∨ g.term.destinationInterface = none

/-! ### tables -/

/-- Networks that stand for the same addresses. -/
def SameNet (m n : Net) : Prop := m.ver = n.ver ∧ m.addr = n.addr ∧ m.plen = n.plen

/-- The book after the addresses have been entered. -/
structure Entered (b : Book) (l : List Net) : Prop where
  nodup : (b.map Prod.fst).Nodup
  names : ∀ e ∈ b, e.1 = shorten e.2.1
  sound : ∀ e ∈ b, ∀ n ∈ e.2.2, n ∈ l ∧ n.parent = e.2.1
  full : ∀ e ∈ b, e.2.2 ≠ []
  complete : ∀ n ∈ l, ∃ e ∈ b, e.2.1 = n.parent ∧ ∃ m ∈ e.2.2, SameNet m n

theorem lookup_none_key {β : Type} {k : String} : ∀ {l : List (String × β)}, l.lookup k = none → k ∉ l.map Prod.fst
  | [], _, h => by cases h
  | (a, b) :: l, h, hm => by
    rw [List.lookup_cons] at h
    by_cases e : k = a
    · subst e; simp at h
    · rw [beq_false_of_ne e] at h
      rcases List.mem_cons.1 hm with h1 | h1
      · exact e h1
      · exact lookup_none_key h h1

theorem key_unique {β : Type} : ∀ {l : List (String × β)}, (l.map Prod.fst).Nodup → ∀ {a b}, a ∈ l → b ∈ l → a.1 = b.1 → a = b
  | [], _, _, _, h, _, _ => by cases h
  | x :: l, hn, a, b, ha, hb, e => by
    rw [List.map_cons, List.nodup_cons] at hn
    rcases List.mem_cons.1 ha with h1 | h1 <;> rcases List.mem_cons.1 hb with h2 | h2
    · rw [h1, h2]
    · rw [h1] at e
      exact absurd (List.mem_map.2 ⟨b, h2, e.symm⟩) hn.1
    · rw [h2] at e
      exact absurd (List.mem_map.2 ⟨a, h1, e⟩) hn.1
    · exact key_unique hn.2 h1 h2 e

theorem enter_good {b c : Book} {l : List Net} {n : Net} (h : Entered b l) (he : enter b n = .ok c) : Entered c (l ++ [n]) := by
  unfold enter at he
  split at he
  next hl =>
    cases he
    have hk := lookup_none_key hl
    constructor
    · rw [List.map_append, List.nodup_append]
      refine ⟨h.nodup, by simp, ?_⟩
      rintro a ha b hb rfl
      simp at hb
      exact hk (hb ▸ ha)
    · intro e hm
      rcases List.mem_append.1 hm with hm | hm
      · exact h.names e hm
      · obtain rfl := List.mem_singleton.1 hm; rfl
    · intro e hm m hmm
      rcases List.mem_append.1 hm with hm | hm
      · exact ⟨List.mem_append_left _ (h.sound e hm m hmm).1, (h.sound e hm m hmm).2⟩
      · obtain rfl := List.mem_singleton.1 hm
        obtain rfl := List.mem_singleton.1 hmm
        exact ⟨by simp, rfl⟩
    · intro e hm
      rcases List.mem_append.1 hm with hm | hm
      · exact h.full e hm
      · obtain rfl := List.mem_singleton.1 hm; simp
    · intro m hm
      rcases List.mem_append.1 hm with hm | hm
      · obtain ⟨e, h1, h2⟩ := h.complete m hm
        exact ⟨e, List.mem_append_left _ h1, h2⟩
      · obtain rfl := List.mem_singleton.1 hm
        exact ⟨_, List.mem_append_right _ (List.mem_singleton.2 rfl), rfl, m, by simp, rfl, rfl, rfl⟩
  next long nets hl =>
    have he : (if long ≠ n.parent then Except.error (Err.raised "DuplicateShortenedTableNameError") else
      .ok (b.map fun e =>
        if e.1 = shorten n.parent then
          (e.1, e.2.1, if e.2.2.any fun m => m.ver == n.ver && m.addr == n.addr && m.plen == n.plen then e.2.2 else e.2.2 ++ [n])
        else e)) = .ok c := he
    split at he
    · cases he
    next hp =>
      have hp : long = n.parent := Classical.not_not.1 hp
      cases he
      have hm : (shorten n.parent, long, nets) ∈ b := Cisco.mem_of_lookup' hl
      have hkey : ∀ e ∈ b, e.1 = shorten n.parent → e.2.1 = n.parent := by
        intro e he h1
        rw [key_unique h.nodup he hm h1]
        exact hp
      constructor
      · rw [List.map_map]
        have : (Prod.fst ∘ fun e : String × String × List Net =>
          if e.1 = shorten n.parent then
            (e.1, e.2.1, if e.2.2.any fun m => m.ver == n.ver && m.addr == n.addr && m.plen == n.plen then e.2.2 else e.2.2 ++ [n])
          else e) = Prod.fst := by
          funext e
          dsimp only [Function.comp]
          split <;> rfl
        rw [this]
        exact h.nodup
      · intro e he
        obtain ⟨e', he', rfl⟩ := List.mem_map.1 he
        split
        · exact h.names e' he'
        · exact h.names e' he'
      · intro e he m hmm
        obtain ⟨e', he', rfl⟩ := List.mem_map.1 he
        split at hmm
        next hk =>
          rw [if_pos hk]
          have old : m ∈ e'.2.2 → m ∈ l ++ [n] ∧ m.parent = e'.2.1 :=
            fun h1 => ⟨List.mem_append_left _ (h.sound e' he' m h1).1, (h.sound e' he' m h1).2⟩
          dsimp only at hmm
          split at hmm
          · exact old hmm
          · rcases List.mem_append.1 hmm with h1 | h1
            · exact old h1
            · obtain rfl := List.mem_singleton.1 h1
              exact ⟨by simp, (hkey e' he' hk).symm⟩
        next hk =>
          rw [if_neg hk]
          exact ⟨List.mem_append_left _ (h.sound e' he' m hmm).1, (h.sound e' he' m hmm).2⟩
      · intro e he
        obtain ⟨e', he', rfl⟩ := List.mem_map.1 he
        split
        · dsimp only
          split
          · exact h.full e' he'
          · simp
        · exact h.full e' he'
      · intro m hm'
        rcases List.mem_append.1 hm' with h1 | h1
        · obtain ⟨e, h2, h3, k, h4, h5⟩ := h.complete m h1
          refine ⟨_, List.mem_map.2 ⟨e, h2, rfl⟩, ?_⟩
          split
          · refine ⟨h3, k, ?_, h5⟩
            dsimp only
            split
            · exact h4
            · exact List.mem_append_left _ h4
          · exact ⟨h3, k, h4, h5⟩
        · obtain rfl := List.mem_singleton.1 h1
          refine ⟨_, List.mem_map.2 ⟨_, hm, rfl⟩, ?_⟩
          rw [if_pos rfl]
          refine ⟨hp, ?_⟩
          dsimp only
          split
          next ha =>
            obtain ⟨k, hk, h2⟩ := List.any_eq_true.1 ha
            simp only [Bool.and_eq_true, beq_iff_eq] at h2
            exact ⟨k, hk, h2.1.1, h2.1.2, h2.2⟩
          next => exact ⟨m, by simp, rfl, rfl, rfl⟩

theorem enterAll_good : ∀ {ns : List Net} {b c : Book} {l : List Net}, Entered b l → enterAll b ns = .ok c → Entered c (l ++ ns)
  | [], b, c, l, h, he => by
    cases he
    simpa using h
  | n :: ns, b, c, l, h, he => by
    unfold enterAll at he
    obtain ⟨d, h1, h2⟩ := bind_ok he
    have := enterAll_good (enter_good h h1) h2
    simpa using this

theorem enterAll_append : ∀ {ns ms : List Net} {b c d : Book}, enterAll b ns = .ok c → enterAll c ms = .ok d →
    enterAll b (ns ++ ms) = .ok d
  | [], _, _, _, _, h1, h2 => by cases h1; exact h2
  | n :: ns, ms, b, c, d, h1, h2 => by
    unfold enterAll at h1
    obtain ⟨x, h3, h4⟩ := bind_ok h1
    rw [List.cons_append]
    unfold enterAll
    rw [h3]
    exact enterAll_append h4 h2

/-! ### the terms of the output -/

/-- All addresses of a policy. -/
def pfAddresses (fs : List Packetfilter.Filter) : List Net :=
  (Spec.Packetfilter.terms fs).flatMap fun x => x.2.term.sourceAddress ++ x.2.term.destinationAddress

/-- What becomes of a term of a filter with the options. -/
def Prepared (x : List String × PTerm) (st : Bool) (r : Option Ready) : Prop :=
  (x.2.expired = true ∧ r = none) ∨
  (x.2.expired = false ∧ ∃ af q, filterType x.1 = .ok af ∧ ready st af (directionOf x.1) x.2.term = .ok q ∧ r = some q)

theorem pf_terms {st : Bool} {options : List String} {af : String} (haf : filterType options = .ok af) :
    ∀ {gs : List PTerm} {names : List Str} {b : Book} {out : Book × List Ready},
    termsLoop st af (directionOf options) names b gs = .ok out →
    enterAll b (gs.flatMap fun g => g.term.sourceAddress ++ g.term.destinationAddress) = .ok out.1 ∧
    ∃ L : List ((List String × PTerm) × Option Ready), L.map Prod.fst = gs.map (fun g => (options, g)) ∧
      L.filterMap Prod.snd = out.2 ∧ ∀ e ∈ L, Prepared e.1 st e.2
  | [], names, b, out, h => by
    cases h
    exact ⟨rfl, [], rfl, rfl, fun _ h => by cases h⟩
  | g :: gs, names, b, out, h => by
    unfold termsLoop at h
    obtain ⟨name, _, h⟩ := bind_ok h
    split at h
    · cases h
    obtain ⟨b', hb, h⟩ := bind_ok h
    split at h
    next hx =>
      obtain ⟨h1, L, h2, h3, h4⟩ := pf_terms haf h
      refine ⟨enterAll_append hb h1, ((options, g), none) :: L, by simp [h2], by simpa using h3, ?_⟩
      intro e he
      rcases List.mem_cons.1 he with rfl | he
      · exact .inl ⟨hx, rfl⟩
      · exact h4 e he
    next hx =>
      obtain ⟨r, hr, h⟩ := bind_ok h
      obtain ⟨q, hq, h⟩ := bind_ok h
      cases h
      obtain ⟨h1, L, h2, h3, h4⟩ := pf_terms haf hq
      refine ⟨enterAll_append hb h1, ((options, g), some r) :: L, by simp [h2], by simp [h3], ?_⟩
      intro e he
      rcases List.mem_cons.1 he with rfl | he
      · exact .inr ⟨by simpa using hx, af, r, haf, hr, rfl⟩
      · exact h4 e he

/-- The state kept by the terms of the policy, given the setting at the beginning. -/
structure StateOf (fs : List Packetfilter.Filter) (start : Bool) (x : List String × PTerm) (st : Bool) : Prop where
  off : start = false → st = false
  own : "nostate" ∈ x.1 → st = false
  on : (∀ f ∈ fs, "nostate" ∉ f.options) → st = start
  head : (∀ f, fs.head? = some f → "nostate" ∈ f.options) → st = false

theorem pf_translate : ∀ {fs : List Packetfilter.Filter} {start : Bool} {b : Book} {out : Book × List (List Ready)},
    translate start b fs = .ok out →
    enterAll b (pfAddresses fs) = .ok out.1 ∧
    ∃ L : List ((List String × PTerm) × Option Ready), L.map Prod.fst = Spec.Packetfilter.terms fs ∧
      L.filterMap Prod.snd = out.2.flatten ∧ ∀ e ∈ L, ∃ st, Prepared e.1 st e.2 ∧ StateOf fs start e.1 st
  | [], start, b, out, h => by
    cases h
    exact ⟨rfl, [], rfl, rfl, fun _ h => by cases h⟩
  | f :: fs, start, b, out, h => by
    unfold translate at h
    split at h
    · cases h
    obtain ⟨af, haf, h⟩ := bind_ok h
    obtain ⟨x, hx, h⟩ := bind_ok h
    obtain ⟨q, hq, h⟩ := bind_ok h
    cases h
    obtain ⟨h1, L, h2, h3, h4⟩ := pf_terms haf hx
    obtain ⟨k1, M, k2, k3, k4⟩ := pf_translate hq
    refine ⟨?_, L ++ M, ?_, ?_, ?_⟩
    · have : pfAddresses (f :: fs) = (f.terms.flatMap fun g => g.term.sourceAddress ++ g.term.destinationAddress) ++ pfAddresses fs := by
        simp [pfAddresses, Spec.Packetfilter.terms, List.flatMap_append, List.flatMap_map]
      rw [this]
      exact enterAll_append h1 k1
    · rw [List.map_append, h2, k2]
      rfl
    · rw [List.filterMap_append, h3, k3]
      rfl
    · intro e he
      rcases List.mem_append.1 he with he | he
      · refine ⟨_, h4 e he, ?_⟩
        have hopt : e.1.1 = f.options := by
          have : e.1 ∈ L.map Prod.fst := List.mem_map.2 ⟨e, he, rfl⟩
          rw [h2] at this
          obtain ⟨g, _, hg⟩ := List.mem_map.1 this
          rw [← hg]
        constructor
        · rintro rfl; rfl
        · intro h; rw [hopt] at h; simp [h]
        · intro h; simp [h f (by simp)]
        · intro h; simp [h f rfl]
      · obtain ⟨st, h5, h6⟩ := k4 e he
        refine ⟨st, h5, ?_⟩
        constructor
        · rintro rfl; exact h6.off rfl
        · exact h6.own
        · intro h
          rw [h6.on fun g hg => h g (List.mem_cons_of_mem _ hg)]
          simp [h f (by simp)]
        · intro h
          exact h6.off (by simp [h f rfl])

/-- What the output says about a term. -/
def Printed (x : List String × PTerm) (st : Bool) (r : Option Rule) : Prop :=
  (x.2.expired = true ∧ r = none) ∨
  (x.2.expired = false ∧ ∃ af q, filterType x.1 = .ok af ∧ ready st af (directionOf x.1) x.2.term = .ok q ∧ render q = .ok r)

theorem printed_list : ∀ {L : List ((List String × PTerm) × Option Ready)} {rs : List (Option Rule)} {P : List String × PTerm → Bool → Prop},
    listM render (L.filterMap Prod.snd) = .ok rs → (∀ e ∈ L, ∃ st, Prepared e.1 st e.2 ∧ P e.1 st) →
    ∃ M : List ((List String × PTerm) × Option Rule), M.map Prod.fst = L.map Prod.fst ∧
      M.filterMap Prod.snd = rs.filterMap id ∧ ∀ e ∈ M, ∃ st, Printed e.1 st e.2 ∧ P e.1 st
  | [], rs, P, h, _ => by
    cases h
    exact ⟨[], rfl, rfl, fun _ h => by cases h⟩
  | ⟨x, none⟩ :: L, rs, P, h, hp => by
    rw [List.filterMap_cons_none rfl] at h
    obtain ⟨M, h1, h2, h3⟩ := printed_list h fun e he => hp e (List.mem_cons_of_mem _ he)
    refine ⟨(x, none) :: M, by simp [h1], by simpa using h2, ?_⟩
    intro e he
    rcases List.mem_cons.1 he with rfl | he
    · obtain ⟨st, h4, h5⟩ := hp (x, none) (by simp)
      refine ⟨st, .inl ?_, h5⟩
      rcases h4 with h4 | ⟨_, _, _, _, _, h6⟩
      · exact ⟨h4.1, rfl⟩
      · cases h6
    · exact h3 e he
  | ⟨x, some q⟩ :: L, rs, P, h, hp => by
    have h : listM render (q :: L.filterMap Prod.snd) = .ok rs := h
    rw [listM] at h
    obtain ⟨r, hr, h⟩ := bind_ok h
    obtain ⟨rs', hrs, h⟩ := bind_ok h
    cases h
    obtain ⟨M, h1, h2, h3⟩ := printed_list hrs fun e he => hp e (List.mem_cons_of_mem _ he)
    refine ⟨(x, r) :: M, by simp [h1], by cases r <;> simp [h2], ?_⟩
    intro e he
    rcases List.mem_cons.1 he with rfl | he
    · obtain ⟨st, h4, h5⟩ := hp (x, some q) (by simp)
      refine ⟨st, .inr ?_, h5⟩
      rcases h4 with ⟨_, h6⟩ | ⟨h6, af, q', h7, h8, h9⟩
      · cases h6
      · cases h9
        exact ⟨h6, af, q, h7, h8, hr⟩
    · exact h3 e he

/-- The parts of the output. -/
theorem pf_output {fs : List Packetfilter.Filter} {o : Packetfilter.Output} (h : Packetfilter.output fs = .ok o) :
    (∃ b, Entered b (pfAddresses fs) ∧ o.tables = b.map fun e => (e.1, e.2.2)) ∧
    ∃ M : List ((List String × PTerm) × Option Rule), M.map Prod.fst = Spec.Packetfilter.terms fs ∧
      M.filterMap Prod.snd = o.rules ∧ ∀ e ∈ M, ∃ st, Printed e.1 st e.2 ∧ StateOf fs true e.1 st := by
  unfold Packetfilter.output at h
  obtain ⟨x, hx, h⟩ := bind_ok h
  obtain ⟨rs, hrs, h⟩ := bind_ok h
  cases h
  obtain ⟨h1, L, h2, h3, h4⟩ := pf_translate hx
  rw [← h3] at hrs
  obtain ⟨M, k1, k2, k3⟩ := printed_list hrs h4
  refine ⟨⟨x.1, ?_, rfl⟩, M, k1.trans h2, k2, k3⟩
  have := enterAll_good (l := []) ⟨by simp, by simp, by simp, by simp, by simp⟩ h1
  simpa using this

/-! ### addresses -/

theorem pf_family {options : List String} {af : String} (h : filterType options = .ok af) :
    (af = "inet" ∨ af = "inet6" ∨ af = "mixed") ∧
    ∀ v, FamilyIs options v ↔ af = "mixed" ∨ af = if v = .v4 then "inet" else "inet6" := by
  unfold filterType at h
  unfold FamilyIs
  cases h1 : options.contains "inet" <;> cases h2 : options.contains "inet6" <;> cases h3 : options.contains "mixed" <;>
    simp only [List.filter, h1, h2, h3] at h <;> cases h <;>
    simp only [List.contains_eq_mem, decide_eq_true_eq, decide_eq_false_iff_not] at h1 h2 h3 <;>
    simp only [h2, h3] <;> refine ⟨by simp, fun v => ?_⟩ <;> cases v <;> simp

/-- The tables have the addresses of the list under its tokens, and nothing else. -/
structure TabOk (ts : List (String × List Net)) (l : List Net) : Prop where
  up : ∀ n ∈ l, ∀ v x, Mem n v x → InTable ts (shorten n.parent) v x
  down : ∀ n ∈ l, ∀ v x, InTable ts (shorten n.parent) v x → Den l v x

theorem mem_addresses {fs : List Packetfilter.Filter} {n : Net} : n ∈ pfAddresses fs ↔ ∃ l, Lists fs l ∧ n ∈ l := by
  unfold pfAddresses Spec.Packetfilter.terms Lists
  constructor
  · intro h
    obtain ⟨x, h1, h2⟩ := List.mem_flatMap.1 h
    obtain ⟨f, hf, h1⟩ := List.mem_flatMap.1 h1
    obtain ⟨g, hg, rfl⟩ := List.mem_map.1 h1
    rcases List.mem_append.1 h2 with h2 | h2
    · exact ⟨_, ⟨f, hf, g, hg, .inl rfl⟩, h2⟩
    · exact ⟨_, ⟨f, hf, g, hg, .inr rfl⟩, h2⟩
  · rintro ⟨l, ⟨f, hf, g, hg, h⟩, hn⟩
    refine List.mem_flatMap.2 ⟨_, List.mem_flatMap.2 ⟨f, hf, List.mem_map.2 ⟨g, hg, rfl⟩⟩, ?_⟩
    rcases h with rfl | rfl
    · exact List.mem_append_left _ hn
    · exact List.mem_append_right _ hn

theorem same_covers {m n : Net} (h : SameNet m n) {v : Ver} {x : Nat} :
    Flat.Covers (m.ver, m.addr, m.plen) v x ↔ Flat.Covers (n.ver, n.addr, n.plen) v x := by
  rw [h.1, h.2.1, h.2.2]

theorem tab_ok {fs : List Packetfilter.Filter} {b : Book} (h : Entered b (pfAddresses fs)) (hc : Closed fs)
    (hw : ∀ l, Lists fs l → ∀ n ∈ l, WF n) {l : List Net} (hl : Lists fs l) : TabOk (b.map fun e => (e.1, e.2.2)) l := by
  constructor
  · intro n hn v x hm
    obtain ⟨e, h1, h2, m, h3, h4⟩ := h.complete n (mem_addresses.2 ⟨l, hl, hn⟩)
    refine ⟨_, List.mem_map.2 ⟨e, h1, rfl⟩, ?_, m, h3, ?_⟩
    · rw [h.names e h1, h2]
    · exact (same_covers h4).2 ((Flat.covers_iff (hw l hl n hn) v x).2 hm)
  · rintro n hn v x ⟨t, ht, h1, m, hm, h2⟩
    obtain ⟨e, he, rfl⟩ := List.mem_map.1 ht
    obtain ⟨e', h3, h4, _⟩ := h.complete n (mem_addresses.2 ⟨l, hl, hn⟩)
    have : e = e' := key_unique h.nodup he h3 (by rw [h.names e' h3, h4]; exact h1)
    subst this
    obtain ⟨h5, h6⟩ := h.sound e he m hm
    obtain ⟨l', hl', h7⟩ := mem_addresses.1 h5
    exact hc l l' hl hl' m h7 (List.mem_map.2 ⟨n, hn, by rw [h6, h4]⟩) v x
      ((Flat.covers_iff (hw l' hl' m h7) v x).1 h2)

theorem checkAf_iff {af : String} (haf : af = "inet" ∨ af = "inet6" ∨ af = "mixed") {l : List Net} {ts : List (String × List Net)}
    (ht : TabOk ts l) {v : Ver} (hv : af = "mixed" ∨ af = if v = .v4 then "inet" else "inet6") (x : Nat) :
    (checkAf af l ≠ some [] ∧ ∃ a ∈ addrStatement (checkAf af l) [], TargetHits ts a v x) ↔ AddrMatch l [] v x := by
  have keep : checkAf af l = if l.isEmpty then none else some (l.filter fun n => af == "mixed" || n.ver == v) := by
    unfold checkAf
    split
    · rfl
    · rcases hv with rfl | rfl
      · exact congrArg some (List.filter_eq_self.2 (by simp)).symm
      · cases v <;> simp
  unfold AddrMatch addrStatement
  rw [keep]
  by_cases hl : l = []
  · subst hl
    simp [TargetHits]
  · rw [if_neg (by simpa using hl)]
    simp only [List.map_nil, List.append_nil, List.mem_eraseDups, hl, false_or, den_nil, not_false_iff, and_true]
    constructor
    · rintro ⟨_, a, ha, h⟩
      obtain ⟨n, hn, rfl⟩ := List.mem_map.1 ha
      exact ht.down n (List.mem_filter.1 hn).1 v x h
    · rintro ⟨n, hn, hm⟩
      have hmem : n ∈ l.filter fun n => af == "mixed" || n.ver == v :=
        List.mem_filter.2 ⟨hn, by simp [hm.1]⟩
      refine ⟨fun e => ?_, _, List.mem_map.2 ⟨n, hmem, rfl⟩, ht.up n hn v x hm⟩
      rw [Option.some.inj e] at hmem
      cases hmem

/-! ### protocols -/

theorem protoStatement_ok {l ps : List String} (h : protoStatement ((l.map Proto.str).map protoNumber) = .ok ps) :
    (l.map Proto.str).map protoNumber = l.map Proto.str ∧ "hopopt" ∉ l ∧ "ipip" ∉ l ∧
    ps = l.map fun s => if s = "icmpv6" then "ipv6-icmp" else s := by
  unfold protoStatement at h
  split at h
  · cases h
  next h1 =>
    split at h
    · cases h
    next h2 =>
      have hi : "ipip" ∉ l := by
        intro hm
        apply h2
        refine List.any_eq_true.2 ⟨.num 4, List.mem_map.2 ⟨.str "ipip", List.mem_map.2 ⟨_, hm, rfl⟩, rfl⟩, rfl⟩
      have e : (l.map Proto.str).map protoNumber = l.map Proto.str := by
        rw [List.map_map]
        apply List.map_congr_left
        intro s hs
        have : s ≠ "ipip" := fun e => hi (e ▸ hs)
        simp [protoNumber, this]
      rw [e] at h h1
      cases h
      refine ⟨e, ?_, hi, ?_⟩
      · intro hm
        exact h1 (by simpa using hm)
      · rw [List.map_map]
        apply List.map_congr_left
        intro s _
        by_cases hs : s = "icmpv6" <;> simp [hs, Proto.text]

theorem pf_protos {l : List String} (h2 : "ipip" ∉ l) (h3 : ∀ s ∈ l, s ∈ iana.map Prod.fst ∧ s ≠ "fragment")
    {p : Packet} (hp : p.proto ∈ iana.map Prod.fst) :
    ((l.map fun s => if s = "icmpv6" then "ipv6-icmp" else s) = [] ∨
      ∃ s ∈ l.map (fun s => if s = "icmpv6" then "ipv6-icmp" else s), Spec.Packetfilter.ProtoIs s p) ↔ OneOf l p.proto := by
  have key : ∀ a ∈ iana, a.1 ≠ "fragment" → a.1 ≠ "ipip" →
      (∃ e ∈ Spec.Packetfilter.protoNumbers, e.1 = (if a.1 = "icmpv6" then "ipv6-icmp" else a.1) ∧ e.2 = a.2) ∧
      ∀ e ∈ Spec.Packetfilter.protoNumbers, e.1 = (if a.1 = "icmpv6" then "ipv6-icmp" else a.1) → e.2 = a.2 := by decide
  have k1 : ∀ a ∈ iana, ∀ b ∈ iana, a.2 = b.2 → a.1 = b.1 := by decide
  unfold OneOf
  rw [List.map_eq_nil_iff]
  refine or_congr Iff.rfl ?_
  constructor
  · rintro ⟨s, hs, e, he, h4, k, hk, h5⟩
    obtain ⟨u, hu, rfl⟩ := List.mem_map.1 hs
    obtain ⟨a, ha, rfl⟩ := List.mem_map.1 (h3 u hu).1
    have h5 : e.2 = k := by exact_mod_cast h5
    have h6 := (key a ha (h3 _ hu).2 (fun e => h2 (e ▸ hu))).2 e he h4
    have : p.proto = a.1 := k1 _ hk a ha (h5.symm.trans h6)
    rw [this]
    exact hu
  · intro hm
    obtain ⟨a, ha, h4⟩ := List.mem_map.1 hp
    obtain ⟨e, he, h5, h6⟩ := (key a ha (by rw [h4]; exact (h3 _ hm).2) (by rw [h4]; exact fun e => h2 (e ▸ hm))).1
    refine ⟨_, List.mem_map.2 ⟨_, hm, rfl⟩, e, he, by rw [h5, h4], a.2, by rw [← h4]; exact ha, by rw [h6]⟩

/-! ### flags -/

/-- The options of packetfilter. -/
def pfOptions : List String := ["established", "tcp-established", "syn", "ack", "fin", "rst", "urg", "psh", "all"]

theorem est_none {protocol : List String} {set : List String} : ∀ {os : List String},
    (∀ o ∈ os, o ≠ "established" ∧ o ≠ "tcp-established") → established protocol set os = .ok set
  | [], _ => rfl
  | o :: os, h => by
    unfold established
    have := h o (by simp)
    rw [if_neg (by simp [this.1, this.2])]
    exact est_none fun o ho => h o (List.mem_cons_of_mem _ ho)

theorem est_some {protocol : List String} {set out : List String} (hs : set ≠ []) : ∀ {os : List String},
    established protocol set os = .ok out → (∀ o ∈ os, o ≠ "established" ∧ o ≠ "tcp-established") ∧ out = set
  | [], h => by cases h; exact ⟨fun _ h => (by cases h), rfl⟩
  | o :: os, h => by
    unfold established at h
    split at h
    · rw [if_pos (by simpa using hs)] at h
      cases h
    next hn =>
      obtain ⟨h1, h2⟩ := est_some hs h
      refine ⟨fun o' ho => ?_, h2⟩
      rcases List.mem_cons.1 ho with rfl | ho
      · exact not_or.1 hn
      · exact h1 o' ho

theorem est_all {protocol : List String} {out : List String} {o : String} {os : List String}
    (ho : ∀ a ∈ o :: os, a = "established" ∨ a = "tcp-established") (hp : protocol ≠ [])
    (h : established protocol [] (o :: os) = .ok out) : out = if protocol.contains "tcp" then ["A"] else [] := by
  have hp' : protocol.isEmpty = false := by simpa using hp
  unfold established at h
  rw [if_pos (ho o (by simp)), if_neg (by simp), hp', Bool.false_or] at h
  split at h
  next ht => rw [if_pos ht, (est_some (by simp) h).2]
  next ht =>
    rw [if_neg ht]
    have ht : protocol.contains "tcp" = false := by simpa using ht
    have key : ∀ (l : List String), established protocol [] l = .ok [] := by
      intro l
      induction l with
      | nil => rfl
      | cons a l ih =>
        unfold established
        rw [hp', ht]
        split
        · rw [if_neg (by simp)]; exact ih
        · exact ih
    rw [key] at h
    cases h
    rfl

theorem letters_iff {p : Packet} (hp : Real p) : ∀ o ∈ pfOptions, o ≠ "established" → o ≠ "tcp-established" →
    ((∀ c ∈ Packetfilter.join (namedFlags [o]), HasFlag p c) ↔ p.hasOption o = true) := by
  have h1 : ∀ o ∈ ["syn", "ack", "fin", "rst", "urg", "psh"], ∃ e ∈ flagNames, e.2 = o ∧
      Packetfilter.join (namedFlags [o]) = [e.1] := by decide +kernel
  have h2 : Packetfilter.join (namedFlags ["all"]) = flagNames.map Prod.fst := by decide +kernel
  have h3 : ∀ e ∈ flagNames, ∀ e' ∈ flagNames, e.1 = e'.1 → e = e' := by decide
  intro o ho n1 n2
  have ho : o ∈ ["syn", "ack", "fin", "rst", "urg", "psh"] ∨ o = "all" := by
    revert o; decide
  rcases ho with ho | rfl
  · obtain ⟨e, he, rfl, h4⟩ := h1 o ho
    rw [h4]
    constructor
    · intro h
      obtain ⟨e', he', h6, h7⟩ := h e.1 (by simp)
      rw [← h3 e' he' e he h6]
      exact h7
    · intro h c' hc'
      obtain rfl := List.mem_singleton.1 hc'
      exact ⟨e, he, rfl, h⟩
  · rw [h2, hp.every]
    constructor
    · intro h e he
      obtain ⟨e', he', h6, h7⟩ := h e.1 (List.mem_map.2 ⟨e, he, rfl⟩)
      rw [← h3 e' he' e he h6]
      exact h7
    · intro h c hc
      obtain ⟨e, he, rfl⟩ := List.mem_map.1 hc
      exact ⟨e, he, rfl, h e he⟩

theorem join_flags (options : List String) : Packetfilter.join (namedFlags options) =
    options.flatMap fun o => Packetfilter.join (namedFlags [o]) := by
  unfold Packetfilter.join namedFlags
  simp [List.flatMap_assoc]

theorem named_empty : ∀ o ∈ pfOptions, (namedFlags [o]).isEmpty = true ↔ o = "established" ∨ o = "tcp-established" := by
  decide +kernel

theorem named_nil {options : List String} (h : namedFlags options = []) {o : String} (ho : o ∈ options) : namedFlags [o] = [] := by
  unfold namedFlags at h ⊢
  simp only [List.flatMap_eq_nil_iff] at h ⊢
  intro o' ho'
  obtain rfl := List.mem_singleton.1 ho'
  exact h o' ho

/-- The flags of a rule mean the options of the term. -/
theorem flags_iff {st : Bool} {protocol options : List String} {fl : Option (List Char × List Char)}
    (h : Packetfilter.flags st protocol options = .ok fl) (hopt : ∀ o ∈ options, o ∈ pfOptions)
    (hest : "established" ∈ options ∨ "tcp-established" ∈ options → protocol ≠ [] ∧ ∀ s ∈ protocol, s ∈ ["tcp", "udp"])
    {p : Packet} (hp : Real p) (hs : st = true → Opens p) (hm : OneOf protocol p.proto) {r : Rule} (hr : r.flags = fl)
    (hst : st = false → r.state ≠ "keep state") :
    (Flat.IfSet (FlagsOf r) fun a => p.proto = "tcp" → ∀ c ∈ a.2, HasFlag p c ↔ c ∈ a.1) ↔ ∀ o ∈ options, p.hasOption o = true := by
  have opens : Opens p → p.proto = "tcp" → ∀ c ∈ ['S', 'A'], HasFlag p c ↔ c ∈ ['S'] := by
    intro ho ht c hc
    obtain ⟨h1, h2⟩ := ho ht
    simp only [List.mem_cons, List.not_mem_nil, or_false] at hc
    rcases hc with rfl | rfl
    · exact iff_of_true ⟨('S', "syn"), by simp [flagNames], rfl, h1⟩ (by simp)
    · refine iff_of_false ?_ (by simp)
      rintro ⟨e, he, h3, h4⟩
      have : ∀ e ∈ flagNames, e.1 = 'A' → e.2 = "ack" := by decide
      rw [this e he h3, h2] at h4
      cases h4
  have free : fl = none → ∀ a, FlagsOf r = some a → st = true ∧ a = (['S'], ['S', 'A']) := by
    intro hn a ha
    unfold FlagsOf at ha
    rw [hr, hn] at ha
    dsimp only at ha
    split at ha
    next hc =>
      cases ha
      refine ⟨?_, rfl⟩
      cases st
      · exact absurd hc.2 (hst rfl)
      · rfl
    next => cases ha
  have fixed : ∀ a, fl = some a → FlagsOf r = some a := by
    intro a ha
    unfold FlagsOf
    rw [hr, ha]
  unfold Packetfilter.flags at h
  split at h
  · cases h
  next hn =>
    obtain ⟨set, hset, h⟩ := bind_ok h
    by_cases hnf : namedFlags options = []
    · have hes : ∀ o ∈ options, o = "established" ∨ o = "tcp-established" := by
        intro o ho
        exact (named_empty o (hopt o ho)).1 (by rw [named_nil hnf ho]; rfl)
      rw [hnf] at hset
      cases options with
      | nil =>
        cases hset
        refine iff_of_true ?_ (fun _ h => by cases h)
        intro a ha
        have h : (if ((protocol.isEmpty || protocol == ["tcp"]) && st && List.isEmpty ([] : List String)) = true then some (['S'], ['S', 'A'])
          else if List.isEmpty ([] : List String) = true then none else some (Packetfilter.join [], Packetfilter.join [])) = fl := by
          injection h
        split at h
        next hc =>
          rw [fixed _ h.symm] at ha
          cases ha
          simp only [Bool.and_eq_true] at hc
          exact opens (hs hc.1.2)
        next hc =>
          simp only [List.isEmpty_nil, if_true] at h
          obtain ⟨h1, rfl⟩ := free h.symm a ha
          exact opens (hs h1)
      | cons o os =>
        obtain ⟨hne, htu⟩ := hest ((hes o (by simp)).imp (fun h => by simp [h]) (fun h => by simp [h]))
        have hpm : p.proto ∈ protocol := hm.resolve_left hne
        have hset := est_all hes hne hset
        have hall : (∀ o' ∈ o :: os, p.hasOption o' = true) ↔ p.hasOption "tcp-established" = true := by
          constructor
          · intro h1
            have := h1 o (by simp)
            rcases hes o (by simp) with rfl | rfl
            · rw [← hp.est]; exact this
            · exact this
          · intro h1 o' ho'
            rcases hes o' ho' with rfl | rfl
            · rw [hp.est]; exact h1
            · exact h1
        rw [hall]
        by_cases ht : protocol.contains "tcp" = true
        · rw [if_pos ht] at hset
          subst hset
          have h : some (['A'], ['A']) = fl := by
            have : ((protocol.isEmpty || protocol == ["tcp"]) && st && ["A"].isEmpty) = false := by simp
            rw [this] at h
            injection h
          rw [fixed _ h.symm, Flat.ifSet_some]
          have ack : HasFlag p 'A' ↔ p.hasOption "ack" = true := by
            constructor
            · rintro ⟨e, he, h3, h4⟩
              have : ∀ e ∈ flagNames, e.1 = 'A' → e.2 = "ack" := by decide
              rwa [this e he h3] at h4
            · intro h1
              exact ⟨('A', "ack"), by simp [flagNames], rfl, h1⟩
          constructor
          · intro h1
            have h2 := htu _ hpm
            simp only [List.mem_cons, List.not_mem_nil, or_false] at h2
            rcases h2 with h2 | h2
            · rw [hp.tcp h2]
              exact ack.1 ((h1 h2 'A' (by simp)).2 (by simp))
            · exact hp.udp h2
          · intro h1 h2 c hc
            obtain rfl := List.mem_singleton.1 hc
            rw [hp.tcp h2] at h1
            exact iff_of_true (ack.2 h1) (by simp)
        · rw [if_neg ht] at hset
          subst hset
          have hnt : "tcp" ∉ protocol := by simpa using ht
          have hudp : p.proto = "udp" := by
            have h2 := htu _ hpm
            simp only [List.mem_cons, List.not_mem_nil, or_false] at h2
            rcases h2 with h2 | h2
            · rw [h2] at hpm; exact absurd hpm hnt
            · exact h2
          refine iff_of_true ?_ (hp.udp hudp)
          intro a _ h2
          rw [hudp] at h2
          exact absurd h2 (by decide)
    · have hpt : protocol = ["tcp"] := by
        simp only [Bool.and_eq_true, Bool.not_eq_true', List.isEmpty_eq_false_iff, bne_iff_ne, ne_eq, not_and, Classical.not_not] at hn
        exact hn hnf
      obtain ⟨h1, rfl⟩ := est_some hnf hset
      have hpp : p.proto = "tcp" := by
        have := hm.resolve_left (by rw [hpt]; simp)
        rw [hpt] at this
        simpa using this
      have h : some (Packetfilter.join (namedFlags options), Packetfilter.join (namedFlags options)) = fl := by
        have : (namedFlags options).isEmpty = false := by simpa using hnf
        rw [this] at h
        simp only [Bool.and_false, Bool.false_eq_true, if_false] at h
        injection h
      rw [fixed _ h.symm, Flat.ifSet_some, join_flags]
      constructor
      · intro h2 o ho
        refine (letters_iff hp o (hopt o ho) (h1 o ho).1 (h1 o ho).2).1 fun c hc => ?_
        have hc' : c ∈ options.flatMap fun o => Packetfilter.join (namedFlags [o]) := List.mem_flatMap.2 ⟨o, ho, hc⟩
        exact (h2 hpp c hc').2 hc'
      · intro h2 _ c hc
        obtain ⟨o, ho, hc'⟩ := List.mem_flatMap.1 hc
        exact iff_of_true ((letters_iff hp o (hopt o ho) (h1 o ho).1 (h1 o ho).2).2 (h2 o ho) c hc') hc

/-! ### types, direction and interface -/

theorem pf_types {t : Term} {types : List (Option Nat)} (h : Packetfilter.icmpTypes t t.protocol = .ok types) {p : Packet}
    (hm : OneOf t.protocol p.proto) :
    ((numbers t.protocol "icmp" types = [] ∨ (p.proto = "icmp" ∧ ∃ k ∈ numbers t.protocol "icmp" types, (p.icmpType, k) ∈ icmpV4)) ∧
      (numbers t.protocol "icmpv6" types = [] ∨
        (p.proto = "icmpv6" ∧ ∃ k ∈ numbers t.protocol "icmpv6" types, (p.icmpType, k) ∈ icmpV6))) ↔
    OneOf t.icmpType p.icmpType := by
  by_cases h0 : t.icmpType = []
  · unfold Packetfilter.icmpTypes at h
    rw [h0] at h
    cases h
    have : ∀ s, numbers t.protocol s [none] = [] := by
      intro s
      unfold numbers
      split <;> rfl
    rw [this, this, h0]
    simp [OneOf]
  · have key : ∀ (af : Ver) (proto other : String), t.protocol = [proto] → ¬ proto = other → p.proto = proto →
        Iptables.icmpTypes t [proto] af = .ok types →
        (((numbers t.protocol proto types = [] ∨ (p.proto = proto ∧ ∃ k ∈ numbers t.protocol proto types, (p.icmpType, k) ∈ icmpNumbers af)) ∧
          (numbers t.protocol other types = [])) ∧ numbers t.protocol proto types ≠ [] ↔ OneOf t.icmpType p.icmpType) := by
      intro af proto other h1 h2 h3 h4
      obtain ⟨k1, _, k2⟩ := Iptables.icmpTypes_spec h4 p
      obtain ⟨k3, _⟩ := k2 h0
      have e1 : numbers t.protocol other types = [] := by
        unfold numbers
        rw [h1, if_neg (by simpa using fun e => h2 e.symm)]
      have e2 : numbers t.protocol proto types = types.filterMap id := by
        unfold numbers
        rw [h1, if_pos (by simp)]
      rw [e1, e2, ← k1]
      have e3 : ∀ k, k ∈ types.filterMap id ↔ some k ∈ types := by simp
      constructor
      · rintro ⟨⟨h5 | ⟨_, k, hk, h6⟩, _⟩, h7⟩
        · exact absurd h5 h7
        · exact ⟨some k, (e3 k).1 hk, fun k' e => by cases e; exact h6⟩
      · rintro ⟨ty, hty, h5⟩
        cases ty with
        | none => exact absurd hty k3
        | some k =>
          have hk := (e3 k).2 hty
          exact ⟨⟨.inr ⟨h3, k, hk, h5 k rfl⟩, rfl⟩, fun e => by rw [e] at hk; cases hk⟩
    have full : ∀ (af : Ver) (proto : String), t.protocol = [proto] → Iptables.icmpTypes t [proto] af = .ok types →
        numbers t.protocol proto types ≠ [] := by
      intro af proto h1 h4
      have hty : ∃ ty, ty ∈ t.icmpType := List.exists_mem_of_ne_nil _ h0
      obtain ⟨ty, hty⟩ := hty
      obtain ⟨k1, _, k2⟩ := Iptables.icmpTypes_spec h4 { icmpType := ty : Packet }
      obtain ⟨o, ho, _⟩ := k1.2 (.inr hty)
      cases o with
      | none => exact absurd ho (k2 h0).1
      | some k =>
        unfold numbers
        rw [h1, if_pos (by simp)]
        intro e
        have : k ∈ types.filterMap id := by simpa using ho
        rw [e] at this
        cases this
    unfold Packetfilter.icmpTypes at h
    rw [if_neg (by simpa using h0)] at h
    split at h
    next hi =>
      have h4 : Iptables.icmpTypes t ["icmp"] .v4 = .ok types := by
        unfold Iptables.icmpTypes
        rw [if_neg (by simpa using h0), ← hi]
        exact h
      have hpp : p.proto = "icmp" := by
        have := hm.resolve_left (by rw [hi]; simp)
        rw [hi] at this
        simpa using this
      have k := key .v4 "icmp" "icmpv6" hi (by decide) hpp h4
      have f := full .v4 "icmp" hi h4
      rw [← k]
      constructor
      · rintro ⟨h5, h6⟩
        refine ⟨⟨h5, h6.resolve_right fun h7 => ?_⟩, f⟩
        rw [hpp] at h7
        exact absurd h7.1 (by decide)
      · rintro ⟨⟨h5, h6⟩, _⟩
        exact ⟨h5, .inl h6⟩
    next =>
      split at h
      next hi =>
        have h4 : Iptables.icmpTypes t ["icmpv6"] .v6 = .ok types := by
          unfold Iptables.icmpTypes
          rw [if_neg (by simpa using h0), ← hi]
          exact h
        have hpp : p.proto = "icmpv6" := by
          have := hm.resolve_left (by rw [hi]; simp)
          rw [hi] at this
          simpa using this
        have k := key .v6 "icmpv6" "icmp" hi (by decide) hpp h4
        have f := full .v6 "icmpv6" hi h4
        rw [← k]
        constructor
        · rintro ⟨h5, h6⟩
          refine ⟨⟨h6, h5.resolve_right fun h7 => ?_⟩, f⟩
          rw [hpp] at h7
          exact absurd h7.1 (by decide)
        · rintro ⟨⟨h5, h6⟩, _⟩
          exact ⟨.inl h6, h5⟩
      next => cases h

theorem pf_direction (options : List String) (dir : String) (hd : dir = "in" ∨ dir = "out") :
    (directionOf options = "" ∨ directionOf options = dir) ↔ DirectionIs options dir := by
  unfold directionOf DirectionIs
  by_cases h1 : "in" ∈ options <;> by_cases h2 : "out" ∈ options <;> rcases hd with rfl | rfl <;> simp [h1, h2]

theorem pf_place {options : List String} {t : Term} {f : Flow} (hd : f.dir = "in" ∨ f.dir = "out")
    (hb : (t.destinationInterface.isSome && t.sourceInterface.isSome) = false)
    (h1 : DirectionIs options "in" ∨ t.sourceInterface = none) (h2 : DirectionIs options "out" ∨ t.destinationInterface = none) :
    (((place (directionOf options) t).1 = "" ∨ (place (directionOf options) t).1 = f.dir) ∧
      Flat.IfSet (place (directionOf options) t).2 fun i => (if f.dir = "in" then f.packet.inInterface else f.packet.outInterface) = i) ↔
    DirectionIs options f.dir ∧ SideIs t f.dir ∧ (t.sourceInterface = none ∨ t.sourceInterface = some f.packet.inInterface) ∧
      (t.destinationInterface = none ∨ t.destinationInterface = some f.packet.outInterface) := by
  have out : ¬ ("out" = "in") := by decide
  unfold place SideIs
  cases hs : t.sourceInterface with
  | none =>
    cases ht : t.destinationInterface with
    | none => simp [pf_direction options f.dir hd, Flat.ifSet_none]
    | some i =>
      rw [ht] at h2
      have h2 := h2.resolve_right (by simp)
      simp only [Flat.ifSet_some]
      rcases hd with hd | hd <;> rw [hd] <;> first | (simp [h2]; done) | (simp [h2]; exact eq_comm)
  | some i =>
    cases ht : t.destinationInterface with
    | none =>
      rw [hs] at h1
      have h1 := h1.resolve_right (by simp)
      simp only [Flat.ifSet_some]
      rcases hd with hd | hd <;> rw [hd] <;> first | (simp [h1]; done) | (simp [h1]; exact eq_comm)
    | some j =>
      rw [hs, ht] at hb
      simp at hb

/-! ### terms -/

theorem pf_tables : ∀ e ∈ Packetfilter.tables.subTokens, e.1 ∈ Packetfilter.tables.tokens := by decide

theorem pf_active {g : PTerm} (h : Spec.Packetfilter.Live g) : Active "packetfilter" (kterm g.term) := ⟨h.2.1, h.2.2⟩

theorem pf_option {options : List String} {g : PTerm} (f : PfFits options g) (hl : Spec.Packetfilter.Live g) :
    ∀ o ∈ g.term.option, o ∈ pfOptions := fun _ ho =>
  word_known (g := Packetfilter.tables) pf_tables (pf_active hl) f.keywords (el := "option") (l := g.term.option)
    (by simp [attrsOf]) rfl (by decide) ho

theorem pf_matches {options : List String} {g : PTerm} (f : PfFits options g) (hl : Spec.Packetfilter.Live g) {p : Packet} :
    Matches g.term p ↔ (AddrMatch g.term.sourceAddress [] p.ver p.src ∧ AddrMatch g.term.destinationAddress [] p.ver p.dst) ∧
      OneOf g.term.protocol p.proto ∧ (PortMatch g.term.sourcePort p.sport ∧ PortMatch g.term.destinationPort p.dport) ∧
      OneOf g.term.icmpType p.icmpType ∧ (∀ o ∈ g.term.option, p.hasOption o = true) ∧
      (g.term.sourceInterface = none ∨ g.term.sourceInterface = some p.inInterface) ∧
      (g.term.destinationInterface = none ∨ g.term.destinationInterface = some p.outInterface) := by
  have un := fun (s : String) {v : Val} => unset (g := Packetfilter.tables) pf_tables rfl (pf_active hl) f.keywords s (v := v)
  have b : Basic (noIface g.term) := basic_of_iface (g := Packetfilter.tables) pf_tables rfl (by decide) (pf_active hl) f.keywords
  have h5 : g.term.protocolExcept = [] := Cisco.wordsVal_falsy (un "protocol_except" (by simp [attrsOf]) (by decide))
  have h9 : g.term.icmpCode = [] := Cisco.listVal_falsy (un "icmp_code" (by simp [attrsOf]) (by decide))
  rw [matches_iface b f.untagged (.inl f.family), f.srcAll, f.dstAll]
  unfold MatchProto
  rw [h5, h9]
  constructor
  · rintro ⟨⟨a, c, d, e, o⟩, i⟩
    exact ⟨a, c.1, d, e.1, o, i⟩
  · rintro ⟨a, c, d, e, o, i⟩
    exact ⟨⟨a, ⟨c, by simp⟩, d, ⟨e, .inl rfl⟩, o⟩, i⟩

theorem pf_ports {l : List PortRange} {protocol : List String} (h : l ≠ [] → protocol ≠ [] ∧ ∀ s ∈ protocol, s ∈ ["tcp", "udp"])
    {p : Packet} (hm : OneOf protocol p.proto) (x : Nat) : PortHits l p x ↔ PortMatch l x := by
  unfold PortHits PortMatch
  constructor
  · rintro (h1 | h1)
    · exact .inl h1
    · exact .inr h1.2
  · rintro (h1 | h1)
    · exact .inl h1
    · by_cases hl : l = []
      · exact .inl hl
      · obtain ⟨h2, h3⟩ := h hl
        exact .inr ⟨h3 _ (hm.resolve_left h2), h1⟩

/-- What a rule of a term does. -/
theorem pf_rule {x : List String × PTerm} {st : Bool} {af : String} {q : Ready} {a v : String} {r : Rule}
    {ts : List (String × List Net)} {f : Flow} (fit : PfFits x.1 x.2) (hl : Spec.Packetfilter.Live x.2) (haf : filterType x.1 = .ok af)
    (hq : ready st af (directionOf x.1) x.2.term = .ok q)
    (hs : checkAf af x.2.term.sourceAddress ≠ some []) (hd : checkAf af x.2.term.destinationAddress ≠ some [])
    (hr : rule q a v (checkAf af x.2.term.sourceAddress) (checkAf af x.2.term.destinationAddress) = .ok r)
    (t1 : TabOk ts x.2.term.sourceAddress) (t2 : TabOk ts x.2.term.destinationAddress) (hp : Real f.packet)
    (hdir : f.dir = "in" ∨ f.dir = "out") (ho : st = true → Opens f.packet) :
    (r.action = v ∧ r.quick = (a != "next")) ∧
    (RuleHits ts f r ↔ FamilyIs x.1 f.packet.ver ∧ DirectionIs x.1 f.dir ∧ SideIs x.2.term f.dir ∧ Matches x.2.term f.packet) := by
  unfold ready at hq
  split at hq
  · cases hq
  next hb =>
    have hb : (x.2.term.destinationInterface.isSome && x.2.term.sourceInterface.isSome) = false := by simpa using hb
    obtain ⟨ps, hps, hq⟩ := bind_ok hq
    cases hq
    rw [termProtocols_ok hps] at hr
    unfold rule at hr
    obtain ⟨types, h1, hr⟩ := bind_ok hr
    obtain ⟨fl, h2, hr⟩ := bind_ok hr
    obtain ⟨qs, h3, hr⟩ := bind_ok hr
    dsimp only at h1 h2 h3 hr
    obtain ⟨e1, n1, n2, e2⟩ := protoStatement_ok h3
    have e3 : (x.2.term.protocol.map Proto.str).map Proto.text = x.2.term.protocol := by
      rw [List.map_map]
      conv => rhs; rw [← List.map_id x.2.term.protocol]
      rfl
    rw [e1, e3] at h1 h2 hr
    injection hr with hr
    obtain ⟨f1, f2⟩ := pf_family haf
    have fam : (r.family = "" ∨ r.family = if f.packet.ver = .v4 then "inet" else "inet6") ↔ FamilyIs x.1 f.packet.ver := by
      rw [f2, ← hr]
      dsimp only
      rcases f1 with rfl | rfl | rfl <;> cases f.packet.ver <;> simp
    have place := pf_place (options := x.1) (t := x.2.term) (f := f) hdir hb fit.sides fit.sides'
    have proto := pf_protos (l := x.2.term.protocol) n2 fit.protos hp.proto
    rw [← e2] at proto
    have hst : st = false → r.state ≠ "keep state" := by
      rintro rfl
      rw [← hr]
      simp [stateOf]
    have hfl : r.flags = fl := by rw [← hr]
    have ports1 : x.2.term.sourcePort ≠ [] → _ := fun h => fit.ports (.inl h)
    have ports2 : x.2.term.destinationPort ≠ [] → _ := fun h => fit.ports (.inr h)
    refine ⟨by rw [← hr]; exact ⟨rfl, rfl⟩, ?_⟩
    rw [pf_matches fit hl]
    constructor
    · intro h
      have hm : OneOf x.2.term.protocol f.packet.proto := proto.1 (by have := h.proto; rw [← hr] at this; exact this)
      have hfam := fam.1 h.family
      have hplace := place.1 ⟨by have := h.direction; rw [← hr] at this; exact this, by have := h.interface; rw [← hr] at this; exact this⟩
      refine ⟨hfam, hplace.1, hplace.2.1, ⟨?_, ?_⟩, hm, ⟨?_, ?_⟩, ?_, ?_, hplace.2.2⟩
      · rw [← checkAf_iff f1 t1 ((f2 _).1 hfam)]
        have := h.src
        rw [← hr, fit.srcAll] at this
        exact ⟨hs, this⟩
      · rw [← checkAf_iff f1 t2 ((f2 _).1 hfam)]
        have := h.dst
        rw [← hr, fit.dstAll] at this
        exact ⟨hd, this⟩
      · refine (pf_ports ports1 hm _).1 ?_
        have := h.sport
        rw [← hr] at this
        exact this
      · refine (pf_ports ports2 hm _).1 ?_
        have := h.dport
        rw [← hr] at this
        exact this
      · rw [← pf_types h1 hm]
        have k1 := h.types
        have k2 := h.types6
        rw [← hr] at k1 k2
        exact ⟨k1, k2⟩
      · exact (flags_iff h2 (pf_option fit hl) fit.est hp ho hm hfl hst).1 h.flags
    · rintro ⟨hfam, hdr, hside, ⟨a1, a2⟩, hm, ⟨p1, p2⟩, hty, hopt, hif⟩
      have pl := place.2 ⟨hdr, hside, hif⟩
      have ty := (pf_types h1 hm).2 hty
      have s1 := ((checkAf_iff f1 t1 ((f2 _).1 hfam) _).2 a1).2
      have s2 := ((checkAf_iff f1 t2 ((f2 _).1 hfam) _).2 a2).2
      have flg := (flags_iff h2 (pf_option fit hl) fit.est hp ho hm hfl hst).2 hopt
      have fm := fam.2 hfam
      have pr := proto.2 hm
      have q1 := (pf_ports ports1 hm f.packet.sport).2 p1
      have q2 := (pf_ports ports2 hm f.packet.dport).2 p2
      rw [← fit.srcAll] at s1
      rw [← fit.dstAll] at s2
      subst hr
      exact ⟨pl.1, pl.2, fm, pr, s1, s2, q1, q2, flg, ty.1, ty.2⟩

theorem pf_live {g : PTerm} (hx : g.expired = false) : Spec.Packetfilter.Live g ↔ Packetfilter.elsewhere g.term = false := by
  unfold Spec.Packetfilter.Live Packetfilter.elsewhere
  simp only [hx, true_and, Bool.or_eq_false_iff, Bool.and_eq_false_iff, Bool.not_eq_false', List.isEmpty_iff,
    List.contains_eq_mem, decide_eq_true_eq, decide_eq_false_iff_not]
  refine and_congr Iff.rfl ⟨.inr, ?_⟩
  rintro (h | h)
  · rw [h]; simp
  · exact h

/-- What the rule of a term does, if there is one. -/
theorem pf_term {x : List String × PTerm} {st : Bool} {o : Option Rule} {ts : List (String × List Net)} {f : Flow}
    (h : Printed x st o) (fit : Spec.Packetfilter.Live x.2 → PfFits x.1 x.2)
    (t1 : TabOk ts x.2.term.sourceAddress) (t2 : TabOk ts x.2.term.destinationAddress) (hp : Real f.packet)
    (hdir : f.dir = "in" ∨ f.dir = "out") (ho : st = true → Opens f.packet) :
    (∀ w, Spec.Packetfilter.Wants f x w ↔ ∃ r, o = some r ∧ RuleHits ts f r ∧ r.quick = true ∧ r.action = w) ∧
    ∀ r, o = some r → r.quick = false → r.action = "pass" := by
  rcases h with ⟨hx, rfl⟩ | ⟨hx, af, q, haf, hq, hr⟩
  · refine ⟨fun w => iff_of_false (fun h => ?_) (by rintro ⟨_, h, _⟩; cases h), by rintro _ ⟨⟩⟩
    have := h.1.1
    rw [hx] at this
    cases this
  · have eq : q.term = x.2.term ∧ q.af = af := by
      unfold ready at hq
      split at hq
      · cases hq
      · obtain ⟨ps, _, hq⟩ := bind_ok hq
        cases hq
        exact ⟨rfl, rfl⟩
    unfold render at hr
    rw [eq.1, eq.2] at hr
    split at hr
    next he =>
      cases hr
      refine ⟨fun w => iff_of_false (fun h => ?_) (by rintro ⟨_, h, _⟩; cases h), by rintro _ ⟨⟩⟩
      rw [(pf_live hx).1 h.1] at he
      cases he
    next he =>
      have hl := (pf_live hx).2 (by simpa using he)
      have fit := fit hl
      obtain ⟨w0, hw0, ha⟩ := fit.action
      rw [ha] at hr
      dsimp only at hr
      obtain ⟨v, hv, hqv, hp'⟩ : ∃ v, Packetfilter.actions.lookup w0 = some v ∧
          (∀ w, (w0 != "next") = true ∧ v = w ↔ (w0, w) ∈ Spec.Packetfilter.verdicts) ∧ ((w0 != "next") = false → v = "pass") := by
        simp only [List.mem_cons, List.not_mem_nil, or_false] at hw0
        rcases hw0 with rfl | rfl | rfl | rfl
        · exact ⟨"pass", rfl, by simp [Spec.Packetfilter.verdicts, eq_comm], fun _ => rfl⟩
        · exact ⟨"block drop", rfl, by simp [Spec.Packetfilter.verdicts, eq_comm], by simp⟩
        · exact ⟨"block return", rfl, by simp [Spec.Packetfilter.verdicts, eq_comm], by simp⟩
        · exact ⟨"pass", rfl, by simp [Spec.Packetfilter.verdicts], fun _ => rfl⟩
      rw [hv] at hr
      dsimp only at hr
      obtain ⟨f1, f2⟩ := pf_family haf
      split at hr
      next hn =>
        cases hr
        refine ⟨fun w => iff_of_false (fun h => ?_) (by rintro ⟨_, h, _⟩; cases h), by rintro _ ⟨⟩⟩
        obtain ⟨_, h1, _, _, h2, _⟩ := h
        obtain ⟨⟨a1, a2⟩, _⟩ := (pf_matches fit hl).1 h2
        rw [Bool.or_eq_true, decide_eq_true_eq, decide_eq_true_eq] at hn
        rcases hn with hn | hn
        · exact ((checkAf_iff f1 t1 ((f2 _).1 h1) _).2 a1).1 hn
        · exact ((checkAf_iff f1 t2 ((f2 _).1 h1) _).2 a2).1 hn
      next hn =>
        rw [Bool.or_eq_true, decide_eq_true_eq, decide_eq_true_eq, not_or] at hn
        obtain ⟨r, hr', hr⟩ := bind_ok hr
        cases hr
        obtain ⟨⟨k1, k2⟩, k3⟩ := pf_rule fit hl haf hq hn.1 hn.2 hr' t1 t2 hp hdir ho
        constructor
        · intro w
          constructor
          · rintro ⟨_, h1, h2, h3, h4, w', h5, h6⟩
            rw [ha] at h5
            cases h5
            obtain ⟨h7, h8⟩ := (hqv w).2 h6
            exact ⟨r, rfl, k3.2 ⟨h1, h2, h3, h4⟩, by rw [k2, h7], by rw [k1, h8]⟩
          · rintro ⟨r', h1, h2, h3, h4⟩
            cases h1
            obtain ⟨h5, h6, h7, h8⟩ := k3.1 h2
            exact ⟨hl, h5, h6, h7, h8, w0, ha, (hqv w).1 ⟨by rw [← k2]; exact h3, by rw [← k1]; exact h4⟩⟩
        · intro r' h1 h2
          cases h1
          rw [k1]
          exact hp' (by rw [← k2]; exact h2)

/-! ### C92: decisions -/

theorem pf_walk {T : Type} {want : T → String → Prop} {hits : Rule → Prop} {v : String} : ∀ {M : List (T × Option Rule)},
    (∀ e ∈ M, (∀ w, want e.1 w ↔ ∃ r, e.2 = some r ∧ hits r ∧ r.quick = true ∧ r.action = w) ∧
      ∀ r, e.2 = some r → r.quick = false → r.action = "pass") →
    (Walk hits "pass" (M.filterMap Prod.snd) v ↔
      First want (M.map Prod.fst) v ∨ ((∀ x ∈ M.map Prod.fst, ∀ w, ¬ want x w) ∧ v = "pass"))
  | [], _ => by
    constructor
    · intro h
      cases h
      exact .inr ⟨(fun _ h => by cases h), rfl⟩
    · rintro (h | ⟨_, rfl⟩)
      · exact absurd h first_nil
      · exact .done
  | (x, none) :: M, h => by
    have ih := pf_walk (v := v) fun e he => h e (List.mem_cons_of_mem _ he)
    have hx : ∀ w, ¬ want x w := by
      intro w hw
      obtain ⟨r, hr, _⟩ := ((h (x, none) (by simp)).1 w).1 hw
      cases hr
    rw [List.filterMap_cons_none rfl, ih, List.map_cons, first_cons]
    simp [hx]
  | (x, some r) :: M, h => by
    have ih := pf_walk (v := v) fun e he => h e (List.mem_cons_of_mem _ he)
    obtain ⟨h1, h2⟩ := h (x, some r) (by simp)
    have hx : ∀ w, want x w ↔ hits r ∧ r.quick = true ∧ r.action = w := by
      intro w
      rw [h1]
      constructor
      · rintro ⟨r', e, h3⟩
        cases e
        exact h3
      · intro h3
        exact ⟨r, rfl, h3⟩
    have e : ((x, some r) :: M).filterMap Prod.snd = r :: M.filterMap Prod.snd := rfl
    rw [e, List.map_cons, first_cons]
    by_cases hh : hits r
    · cases hq : r.quick with
      | true =>
        constructor
        · intro hw
          cases hw with
          | quick => exact .inl (.inl ((hx _).2 ⟨hh, hq, rfl⟩))
          | later _ hq' => rw [hq] at hq'; cases hq'
          | miss hn => exact absurd hh hn
        · rintro ((hw | ⟨hn, _⟩) | ⟨hn, _⟩)
          · obtain ⟨_, _, rfl⟩ := (hx v).1 hw
            exact .quick hh hq
          · exact absurd ((hx r.action).2 ⟨hh, hq, rfl⟩) (hn _)
          · exact absurd ((hx r.action).2 ⟨hh, hq, rfl⟩) (hn x (by simp) _)
      | false =>
        have ha := h2 r rfl hq
        have nx : ∀ w, ¬ want x w := by
          intro w hw
          have := ((hx w).1 hw).2.1
          rw [hq] at this
          cases this
        have : Walk hits "pass" (r :: M.filterMap Prod.snd) v ↔ Walk hits "pass" (M.filterMap Prod.snd) v := by
          constructor
          · intro hw
            cases hw with
            | quick _ hq' => rw [hq] at hq'; cases hq'
            | later _ _ hw => rw [ha] at hw; exact hw
            | miss hn => exact absurd hh hn
          · intro hw
            exact .later hh hq (by rw [ha]; exact hw)
        rw [this, ih]
        simp [nx]
    · have nx : ∀ w, ¬ want x w := fun w hw => hh ((hx w).1 hw).1
      have : Walk hits "pass" (r :: M.filterMap Prod.snd) v ↔ Walk hits "pass" (M.filterMap Prod.snd) v := by
        constructor
        · intro hw
          cases hw with
          | quick hh' => exact absurd hh' hh
          | later hh' => exact absurd hh' hh
          | miss _ hw => exact hw
        · intro hw
          exact .miss hh hw
      rw [this, ih]
      simp [nx]

/-- C92: the rule set does with a packet what the first term says that matches and decides, and lets pass what no term
decides about. Missing: terms with excluded addresses and others that are not rendered faithfully (`PfFits`), tokens that
mean different addresses in different terms (`Closed`), and TCP packets of connections that have begun, unless the first
filter has `nostate`. -/
theorem C92_policy_partial {fs : List Packetfilter.Filter} {o : Packetfilter.Output} (h : Packetfilter.output fs = .ok o)
    (fits : ∀ x ∈ fs, ∀ g ∈ x.terms, Spec.Packetfilter.Live g → PfFits x.options g) (closed : Closed fs)
    (nets : ∀ l, Lists fs l → ∀ n ∈ l, WF n) {f : Flow} (hp : Real f.packet) (hd : f.dir = "in" ∨ f.dir = "out")
    (hs : Opens f.packet ∨ ∀ x, fs.head? = some x → "nostate" ∈ x.options) (v : String) :
    Does o f v ↔ Spec.Packetfilter.Decides fs f v := by
  obtain ⟨⟨b, hb, hts⟩, M, h1, h2, h3⟩ := pf_output h
  unfold Does Spec.Packetfilter.Decides
  rw [← h1, ← h2]
  apply pf_walk
  intro e he
  obtain ⟨st, h4, h5⟩ := h3 e he
  have hm : e.1 ∈ Spec.Packetfilter.terms fs := by rw [← h1]; exact List.mem_map.2 ⟨e, he, rfl⟩
  obtain ⟨x, hx, hm⟩ := List.mem_flatMap.1 hm
  obtain ⟨g, hg, hm⟩ := List.mem_map.1 hm
  rw [hts]
  refine pf_term h4 ?_ ?_ ?_ hp hd ?_
  · rw [← hm]; exact fits x hx g hg
  · rw [← hm]; exact tab_ok hb closed nets ⟨x, hx, g, hg, .inl rfl⟩
  · rw [← hm]; exact tab_ok hb closed nets ⟨x, hx, g, hg, .inr rfl⟩
  · rintro rfl
    rcases hs with hs | hs
    · exact hs
    · have := h5.head hs
      cases this

/-! ### C93: tables -/

theorem shorten_toList (s : String) : (shorten s).toList = s.toList.take 31 := by
  unfold shorten
  rw [String.toList_ofList]

/-- C93: no two tables have the same name, names have at most 31 characters, no table is empty, and a table has exactly the
addresses that the terms of the policy use under one token, whose name it has. -/
theorem C93_tables {fs : List Packetfilter.Filter} {o : Packetfilter.Output} (h : Packetfilter.output fs = .ok o) :
    (o.tables.map Prod.fst).Nodup ∧
    (∀ t ∈ o.tables, t.1.toList.length ≤ 31 ∧ t.2 ≠ [] ∧ ∃ token : String, t.1.toList = token.toList.take 31 ∧
      ∀ v x, (∃ n ∈ t.2, Flat.Covers (n.ver, n.addr, n.plen) v x) ↔
        ∃ l, Lists fs l ∧ ∃ n ∈ l, n.parent = token ∧ Flat.Covers (n.ver, n.addr, n.plen) v x) ∧
    ∀ l, Lists fs l → ∀ n ∈ l, ∃ t ∈ o.tables, t.1.toList = n.parent.toList.take 31 := by
  obtain ⟨⟨b, hb, hts⟩, _⟩ := pf_output h
  rw [hts]
  refine ⟨?_, ?_, ?_⟩
  · rw [List.map_map]
    exact hb.nodup
  · intro t ht
    obtain ⟨e, he, rfl⟩ := List.mem_map.1 ht
    have hn : e.1.toList = e.2.1.toList.take 31 := by rw [hb.names e he, shorten_toList]
    refine ⟨?_, hb.full e he, e.2.1, hn, ?_⟩
    · dsimp only
      rw [hn, List.length_take]
      omega
    · intro v x
      constructor
      · rintro ⟨n, h1, h2⟩
        obtain ⟨h3, h4⟩ := hb.sound e he n h1
        obtain ⟨l, h5, h6⟩ := mem_addresses.1 h3
        exact ⟨l, h5, n, h6, h4, h2⟩
      · rintro ⟨l, h1, n, h2, h3, h4⟩
        obtain ⟨e', h5, h6, m, h7, h8⟩ := hb.complete n (mem_addresses.2 ⟨l, h1, h2⟩)
        have : e' = e := key_unique hb.nodup h5 he (by rw [hb.names e' h5, hb.names e he, h6, h3])
        subst this
        exact ⟨m, h7, (same_covers h8).2 h4⟩
  · intro l hl n hn
    obtain ⟨e, h1, h2, _⟩ := hb.complete n (mem_addresses.2 ⟨l, hl, hn⟩)
    refine ⟨_, List.mem_map.2 ⟨e, h1, rfl⟩, ?_⟩
    dsimp only
    rw [hb.names e h1, h2, shorten_toList]

/-- The parts of the rule of a term. -/
structure RuleOf (x : List String × PTerm) (st : Bool) (r : Rule) : Prop where
  live : Spec.Packetfilter.Live x.2
  action : ∃ w, x.2.term.action.head? = some w ∧ Packetfilter.actions.lookup w = some r.action ∧ r.quick = (w != "next") ∧
    r.state = stateOf st w
  log : r.log = !x.2.term.logging.isEmpty
  src : ∃ af, r.src = addrStatement (checkAf af x.2.term.sourceAddress) x.2.term.sourceAddressExclude
  dst : ∃ af, r.dst = addrStatement (checkAf af x.2.term.destinationAddress) x.2.term.destinationAddressExclude

theorem rule_of {x : List String × PTerm} {st : Bool} {r : Rule} (h : Printed x st (some r)) : RuleOf x st r := by
  rcases h with ⟨_, h⟩ | ⟨hx, af, q, haf, hq, hr⟩
  · cases h
  · have eq : q.term = x.2.term ∧ q.af = af ∧ q.stateful = st := by
      unfold ready at hq
      split at hq
      · cases hq
      · obtain ⟨ps, _, hq⟩ := bind_ok hq
        cases hq
        exact ⟨rfl, rfl, rfl⟩
    unfold render at hr
    rw [eq.1, eq.2.1] at hr
    split at hr
    · cases hr
    next he =>
      have hl := (pf_live hx).2 (by simpa using he)
      split at hr
      · cases hr
      next w l ha =>
        split at hr
        · cases hr
        next v hv =>
          split at hr
          · cases hr
          · obtain ⟨r', hr', hr⟩ := bind_ok hr
            cases hr
            unfold rule at hr'
            obtain ⟨types, h1, hr'⟩ := bind_ok hr'
            obtain ⟨fl, h2, hr'⟩ := bind_ok hr'
            obtain ⟨qs, h3, hr'⟩ := bind_ok hr'
            injection hr' with hr'
            rw [eq.1, eq.2.2] at hr'
            subst hr'
            exact ⟨hl, ⟨w, by rw [ha]; rfl, hv, rfl, rfl⟩, rfl, ⟨af, rfl⟩, ⟨af, rfl⟩⟩

theorem target_from {af : Option (List Net)} {ex : List Net} {s : String} (h : Target.table s ∈ addrStatement af ex) :
    ∃ l, af = some l ∧ ∃ n ∈ l, s = shorten n.parent := by
  unfold addrStatement at h
  rw [List.mem_eraseDups] at h
  rcases List.mem_append.1 h with h | h
  · cases af with
    | none => simp at h
    | some l =>
      obtain ⟨n, hn, e⟩ := List.mem_map.1 h
      cases e
      exact ⟨l, rfl, n, hn, rfl⟩
  · obtain ⟨n, _, e⟩ := List.mem_map.1 h
    cases e

theorem checkAf_sub {af : String} {l m : List Net} (h : checkAf af l = some m) {n : Net} (hn : n ∈ m) : n ∈ l := by
  unfold checkAf at h
  split at h
  · cases h
  · split at h
    · cases h; exact hn
    · cases h
      exact (List.mem_filter.1 hn).1

/-- C93: the tables whose addresses a rule admits are defined. Missing: the tables that a rule excludes. -/
theorem C93_defined_partial {fs : List Packetfilter.Filter} {o : Packetfilter.Output} (h : Packetfilter.output fs = .ok o)
    {r : Rule} (hr : r ∈ o.rules) {s : String} (hs : Target.table s ∈ r.src ∨ Target.table s ∈ r.dst) :
    s ∈ o.tables.map Prod.fst := by
  have ht := (C93_tables h).2.2
  obtain ⟨_, M, h1, h2, h3⟩ := pf_output h
  rw [← h2] at hr
  obtain ⟨e, he, her⟩ := List.mem_filterMap.1 hr
  obtain ⟨st, h4, _⟩ := h3 e he
  rw [her] at h4
  have ho := rule_of h4
  have hm : e.1 ∈ Spec.Packetfilter.terms fs := by rw [← h1]; exact List.mem_map.2 ⟨e, he, rfl⟩
  obtain ⟨x, hx, hm⟩ := List.mem_flatMap.1 hm
  obtain ⟨g, hg, hm⟩ := List.mem_map.1 hm
  have fin : ∀ l, Lists fs l → ∀ n ∈ l, s = shorten n.parent → s ∈ o.tables.map Prod.fst := by
    rintro l hl n hn rfl
    obtain ⟨t, h5, h6⟩ := ht l hl n hn
    refine List.mem_map.2 ⟨t, h5, ?_⟩
    rw [← String.toList_inj, h6, shorten_toList]
  rcases hs with hs | hs
  · obtain ⟨af, e1⟩ := ho.src
    rw [e1] at hs
    obtain ⟨m, h5, n, h6, h7⟩ := target_from hs
    have := checkAf_sub h5 h6
    rw [← hm] at this
    exact fin _ ⟨x, hx, g, hg, .inl rfl⟩ n this h7
  · obtain ⟨af, e1⟩ := ho.dst
    rw [e1] at hs
    obtain ⟨m, h5, n, h6, h7⟩ := target_from hs
    have := checkAf_sub h5 h6
    rw [← hm] at this
    exact fin _ ⟨x, hx, g, hg, .inr rfl⟩ n this h7

/-! ### C94: state -/

theorem rules_from {fs : List Packetfilter.Filter} {o : Packetfilter.Output} (h : Packetfilter.output fs = .ok o)
    {P : List String × PTerm → Rule → Prop} (hp : ∀ x st r, RuleOf x st r → StateOf fs true x st → P x r) : RulesFrom fs o.rules P := by
  obtain ⟨_, M, h1, h2, h3⟩ := pf_output h
  refine ⟨M, h1, h2, fun e he r hr => ?_⟩
  obtain ⟨st, h4, h5⟩ := h3 e he
  rw [hr] at h4
  exact hp _ st r (rule_of h4) h5

/-- C94: the rules of a filter with `nostate` keep no state. If no filter has it, rules that let pass keep state and say
nothing else about it. Missing: filters without it after filters with it. -/
theorem C94_state_partial {fs : List Packetfilter.Filter} {o : Packetfilter.Output} (h : Packetfilter.output fs = .ok o) :
    RulesFrom fs o.rules fun x r => ("nostate" ∈ x.1 → r.state = "no state") ∧
      ((∀ f ∈ fs, "nostate" ∉ f.options) → (r.action = "pass" → r.state = "keep state") ∧ (r.action ≠ "pass" → r.state = "")) := by
  refine rules_from h fun x st r ho hs => ⟨fun hn => ?_, fun hn => ?_⟩
  · obtain ⟨w, _, _, _, h4⟩ := ho.action
    rw [h4, hs.own hn]
    rfl
  · obtain ⟨w, _, h2, _, h4⟩ := ho.action
    rw [h4, hs.on hn]
    have key : ∀ e ∈ Packetfilter.actions, (e.2 = "pass" → stateOf true e.1 = "keep state") ∧ (e.2 ≠ "pass" → stateOf true e.1 = "") := by
      decide
    exact key _ (Cisco.mem_of_lookup' h2)

/-! ### C95: logging, actions -/

/-- C95: every rule comes from a live term and acts as the first action of the term says; it logs exactly if the term has
`logging`. Missing: a term whose logging is `disable` is logged as well. -/
theorem C95_log_partial {fs : List Packetfilter.Filter} {o : Packetfilter.Output} (h : Packetfilter.output fs = .ok o) :
    RulesFrom fs o.rules fun x r => Spec.Packetfilter.Live x.2 ∧
      (∃ w, x.2.term.action.head? = some w ∧
        ((w, r.action) ∈ Spec.Packetfilter.verdicts ∧ r.quick = true ∨ (w = "next" ∧ r.action = "pass" ∧ r.quick = false))) ∧
      (r.log = true ↔ x.2.term.logging ≠ []) := by
  refine rules_from h fun x st r ho _ => ⟨ho.live, ?_, ?_⟩
  · obtain ⟨w, h1, h2, h3, _⟩ := ho.action
    refine ⟨w, h1, ?_⟩
    have key : ∀ e ∈ Packetfilter.actions, (e ∈ Spec.Packetfilter.verdicts ∧ (e.1 != "next") = true) ∨
        (e.1 = "next" ∧ e.2 = "pass" ∧ (e.1 != "next") = false) := by decide
    rw [h3]
    exact key _ (Cisco.mem_of_lookup' h2)
  · rw [ho.log]
    simp

/-! ### C95: names -/

theorem pf_names {st : Bool} {af d : String} : ∀ {gs : List PTerm} {names : List Str} {b : Book} {q : Book × List Ready},
    termsLoop st af d names b gs = .ok q →
    (gs.map fun g => g.term.name).Nodup ∧ ∀ g ∈ gs, ∀ a, fixTermLength abbreviations 62 g.term.name false false = .ok a → a ∉ names
  | [], _, _, _, _ => ⟨List.nodup_nil, fun _ h => by cases h⟩
  | g :: gs, names, b, q, h => by
    unfold termsLoop at h
    obtain ⟨name, h1, h⟩ := bind_ok h
    have h : (if names.contains name then Except.error (Err.raised "DuplicateTermError") else do
      let b' ← enterAll b (g.term.sourceAddress ++ g.term.destinationAddress)
      if g.expired then termsLoop st af d (name :: names) b' gs
      else do
        let r ← ready st af d g.term
        let q ← termsLoop st af d (name :: names) b' gs
        .ok (q.1, r :: q.2)) = .ok q := h
    split at h
    · cases h
    next hc =>
      have key : ∃ b' q', termsLoop st af d (name :: names) b' gs = .ok q' := by
        obtain ⟨b', _, h⟩ := bind_ok h
        have h : (if g.expired then termsLoop st af d (name :: names) b' gs
          else do
            let r ← ready st af d g.term
            let q ← termsLoop st af d (name :: names) b' gs
            .ok (q.1, r :: q.2)) = .ok q := h
        split at h
        · exact ⟨b', q, h⟩
        · obtain ⟨_, _, h⟩ := bind_ok h
          obtain ⟨q', h, _⟩ := bind_ok h
          exact ⟨b', q', h⟩
      obtain ⟨b', q', hr⟩ := key
      obtain ⟨h2, h3⟩ := pf_names hr
      refine ⟨?_, ?_⟩
      · rw [List.map_cons, List.nodup_cons]
        refine ⟨fun hm => ?_, h2⟩
        obtain ⟨x, hx, he⟩ := List.mem_map.1 hm
        exact h3 x hx name (by rw [he]; exact h1) List.mem_cons_self
      · intro x hx a ha
        rcases List.mem_cons.1 hx with rfl | hx
        · rw [h1] at ha
          cases ha
          simpa using hc
        · exact fun hm => h3 x hx a ha (List.mem_cons_of_mem _ hm)

/-- C95: no two terms of a filter have the same name. -/
theorem C95_names {fs : List Packetfilter.Filter} {o : Packetfilter.Output} (h : Packetfilter.output fs = .ok o) :
    ∀ x ∈ fs, (x.terms.map fun g => g.term.name).Nodup := by
  unfold Packetfilter.output at h
  obtain ⟨x, h, _⟩ := bind_ok h
  revert x
  suffices H : ∀ (fs : List Packetfilter.Filter) (st : Bool) (b : Book) (x : Book × List (List Ready)), translate st b fs = .ok x →
      ∀ y ∈ fs, (y.terms.map fun g => g.term.name).Nodup from fun x h _ => H fs _ _ x h
  intro fs
  induction fs with
  | nil => intro _ _ _ _ y hy; cases hy
  | cons f fs ih =>
    intro st b x h
    unfold translate at h
    split at h
    · cases h
    · obtain ⟨_, _, h⟩ := bind_ok h
      obtain ⟨z, h1, h⟩ := bind_ok h
      obtain ⟨q, h2, _⟩ := bind_ok h
      intro y hy
      rcases List.mem_cons.1 hy with rfl | hy
      · exact (pf_names h1).1
      · exact ih _ _ _ h2 y hy

end Verif.Props
