import Verif.Props.NsxT

/-!
C129 to C131: the addresses NSX-T is given, the policies that are rendered, and what the sections carry.
-/

namespace Verif.Props
open Verif Verif.Spec Verif.Nsx Policy Aclgenerator Nacaddr

/-! ### C129 -/

theorem nsx_kept {c : HighPorts} {t u : Term} {af : String} {st : Bool} (h : fixHighPorts c t af st = .ok u) :
    u.sourceAddress = t.sourceAddress ∧ u.sourceAddressExclude = t.sourceAddressExclude ∧
      u.destinationAddress = t.destinationAddress ∧ u.destinationAddressExclude = t.destinationAddressExclude := by
  unfold fixHighPorts at h
  split at h
  · cases h
  · split at h
    · cases h
    · unfold fixEstablished at h
      split at h
      · split at h
        · cases h
          exact ⟨rfl, rfl, rfl, rfl⟩
        · split at h
          · cases h
            exact ⟨rfl, rfl, rfl, rfl⟩
          · cases h
      · cases h
        exact ⟨rfl, rfl, rfl, rfl⟩

/-- Where a rule for NSX-T comes from. -/
theorem nsxt_origin {type : String} {n : NTerm} {r : Rule}
    (h : r ∈ nsxOut (Nsx.prepare actionsT type) (renderT type) n) : n.expired = false ∧ ∃ q : PTerm,
      q.family = familyOf type n.term ∧ q.item.term.sourceAddress = n.term.sourceAddress ∧
      q.item.term.sourceAddressExclude = n.term.sourceAddressExclude ∧
      q.item.term.destinationAddress = n.term.destinationAddress ∧
      q.item.term.destinationAddressExclude = n.term.destinationAddressExclude ∧ ruleT type q = .ok (some r) := by
  unfold nsxOut at h
  split at h
  next q hq =>
    split at h
    next x hx =>
      rw [List.mem_singleton] at h
      subst h
      unfold Nsx.prepare at hq
      split at hq
      · cases hq
      next he =>
        refine ⟨by simpa using he, q, ?_⟩
        split at hq
        · cases hq
        · split at hq
          · cases hq
          · obtain ⟨nm, _, hq⟩ := bind_ok hq
            obtain ⟨t, ht, hq⟩ := bind_ok hq
            cases hq
            obtain ⟨k1, k2, k3, k4⟩ := nsx_kept ht
            refine ⟨rfl, k1, k2, k3, k4, ?_⟩
            unfold renderT at hx
            obtain ⟨skip, _, hx⟩ := bind_ok hx
            split at hx
            · cases hx
            · exact hx
    · cases h
  · cases h

theorem sides_sub {type : String} {s4 s6 d4 d6 s d : List Net} (h : sides type s4 s6 d4 d6 = some (s, d)) :
    (∀ n ∈ s, n ∈ s4 ++ s6) ∧ ∀ n ∈ d, n ∈ d4 ++ d6 := by
  unfold sides at h
  split at h
  · unfold balance at h
    split at h
    · cases h
      exact ⟨fun _ h => h, fun _ h => h⟩
    · dsimp only at h
      repeat' split at h
      all_goals first
        | (cases h
           constructor <;> intro n hn <;> simp_all; done)
        | (cases h; done)
  · cases h
    exact ⟨fun _ h => h, fun _ h => h⟩

/-- No network that begins with 0.0.0.0 is left. -/
theorem cleared {l : List Net} (h : hasAny l = true ∨ (∀ n ∈ l, n.ver = .v4 → n.addr ≠ 0)) :
    ∀ n ∈ clearAny l, n.ver = .v4 → n.addr ≠ 0 := by
  unfold clearAny
  split
  · simp
  next hx =>
    rcases h with h | h
    · exact absurd h hx
    · exact h

theorem noZero_of {l : List Net} (h : ¬ Den l .v4 0) : ∀ n ∈ l, n.ver = .v4 → n.addr ≠ 0 := by
  intro n hn hv h0
  refine h ⟨n, hn, hv, by omega, ?_⟩
  rw [h0]
  have := Nat.two_pow_pos (n.ver.bits - n.plen)
  omega

theorem side6 {fams : List Ver} {inc exc s6 : List Net} (hw : ∀ n ∈ inc ++ exc, WF n) (h : side fams .v6 inc exc = .ok s6) :
    ∀ n ∈ s6, n.ver = .v6 := by
  obtain ⟨r, e, _, b2, _⟩ := side_spec (fams := fams) (v := .v6) (fun n hn => hw n (List.mem_append.2 (.inl hn)))
    (fun n hn => hw n (List.mem_append.2 (.inr hn)))
  rw [h] at e
  cases e
  exact b2

/-- **C129**: no rule for NSX-T has a source that begins with 0.0.0.0, whatever the terms are. -/
theorem C129_sources {fs : List Nsx.Filter} {sec : Nsx.Section} (h : translateT fs = .ok sec)
    (hw : ∀ f ∈ fs, ∀ n ∈ f.terms, (∀ x ∈ n.term.sourceAddress ++ n.term.sourceAddressExclude, WF x)) :
    ∀ r ∈ sec.rules, ∀ n ∈ r.src, ¬ (n.1 = .v4 ∧ n.2.1 = 0) := by
  obtain ⟨f, hf, tg, _, _, _, _, hr, _⟩ := nsxt_section h
  have hf : f ∈ fs := (List.mem_filter.1 (hf ▸ List.mem_singleton.2 rfl : f ∈ fs.filter Filter.here)).1
  rw [hr]
  intro r hr x hx
  obtain ⟨n, hn, hr⟩ := List.mem_flatMap.1 hr
  obtain ⟨_, q, e0, e1, e2, e3, e4, hq⟩ := nsxt_origin hr
  have w := hw f hf n hn
  unfold ruleT at hq
  rw [e0] at hq
  obtain ⟨s4, h2, hq⟩ := bind_ok hq
  obtain ⟨d4, h4, hq⟩ := bind_ok hq
  obtain ⟨s6, h3, hq⟩ := bind_ok hq
  obtain ⟨d6, h5, hq⟩ := bind_ok hq
  split at hq
  · cases hq
  next s d hs =>
    obtain ⟨types, _, hq⟩ := bind_ok hq
    cases hq
    obtain ⟨m, hm, rfl⟩ := List.mem_map.1 hx
    rintro ⟨hv, h0⟩
    have hv : m.ver = .v4 := hv
    have h0 : m.addr = 0 := h0
    rcases List.mem_append.1 ((sides_sub hs).1 m hm) with hm | hm
    · unfold source4 at h2
      rw [e1, e2] at h2
      obtain ⟨_, _, c3, c4, c5⟩ := nsxt_side4 w h2
      refine cleared ?_ m hm hv h0
      by_cases hne : n.term.sourceAddress = []
      · rw [c3 hne]
        simp
      · by_cases hf : Ver.v4 ∈ families tg.type (familyOf tg.type n.term)
        · rcases (c5 hne hf).2 with ⟨_, hst, rfl⟩ | ⟨_, hd⟩
          · simp only [Bool.and_eq_false_iff, Bool.not_eq_false', List.isEmpty_iff] at hst
            rcases hst with hst | hst
            · rw [hst]
              simp
            · exact .inl hst
          · exact .inr (noZero_of hd)
        · rw [c4 hf]
          simp
    · rw [e1, e2] at h3
      rw [side6 w h3 m hm] at hv
      cases hv

/-- The terms whose destinations are cleared of 0.0.0.0. -/
def DestZeroFree (t : Term) : Prop :=
  (∃ n ∈ t.destinationAddressExclude, n.ver = .v4) ∨
  ((∃ n ∈ t.destinationAddress, n.ver = .v4 ∧ n.addr = 0 ∧ n.plen = 0) ∨ ∀ n ∈ t.destinationAddress, n.ver = .v4 → n.addr ≠ 0) ∨
  (t.sourceAddress ≠ [] ∧ (∃ x, x ≠ 0 ∧ AddrMatch t.sourceAddress t.sourceAddressExclude .v4 x) ∧
    ((∃ n ∈ t.sourceAddressExclude, n.ver = .v4) ∨ ¬ ∃ n ∈ t.sourceAddress, n.ver = .v4 ∧ n.addr = 0 ∧ n.plen = 0))

/-- **C129**: a rule for NSX-T has no destination that begins with 0.0.0.0 if its term excludes IPv4 destinations, has no such
destination or all of IPv4, or has IPv4 sources other than all. -/
theorem C129_destinations_partial {fs : List Nsx.Filter} {sec : Nsx.Section} (h : translateT fs = .ok sec)
    (hw : ∀ f ∈ fs, ∀ n ∈ f.terms, (∀ x ∈ n.term.sourceAddress ++ n.term.sourceAddressExclude, WF x) ∧
      ∀ x ∈ n.term.destinationAddress ++ n.term.destinationAddressExclude, WF x)
    (hd : ∀ f ∈ fs, ∀ n ∈ f.terms, n.expired = false → DestZeroFree n.term) :
    ∀ r ∈ sec.rules, ∀ n ∈ r.dst, ¬ (n.1 = .v4 ∧ n.2.1 = 0) := by
  obtain ⟨f, hf, tg, _, _, _, _, hr, _⟩ := nsxt_section h
  have hf : f ∈ fs := (List.mem_filter.1 (hf ▸ List.mem_singleton.2 rfl : f ∈ fs.filter Filter.here)).1
  rw [hr]
  intro r hr x hx
  obtain ⟨n, hn, hr⟩ := List.mem_flatMap.1 hr
  obtain ⟨hexp, q, e0, e1, e2, e3, e4, hq⟩ := nsxt_origin hr
  obtain ⟨w, w'⟩ := hw f hf n hn
  have hd := hd f hf n hn hexp
  unfold ruleT at hq
  rw [e0] at hq
  obtain ⟨s4, h2, hq⟩ := bind_ok hq
  obtain ⟨d4, h4, hq⟩ := bind_ok hq
  obtain ⟨s6, h3, hq⟩ := bind_ok hq
  obtain ⟨d6, h5, hq⟩ := bind_ok hq
  split at hq
  · cases hq
  next s d hs =>
    obtain ⟨types, _, hq⟩ := bind_ok hq
    cases hq
    obtain ⟨m, hm, rfl⟩ := List.mem_map.1 hx
    rintro ⟨hv, h0⟩
    have hv : m.ver = .v4 := hv
    have h0 : m.addr = 0 := h0
    rcases List.mem_append.1 ((sides_sub hs).2 m hm) with hm | hm
    · unfold dest4 at h4
      rw [e3, e4] at h4
      obtain ⟨_, _, c3, c4, c5⟩ := nsxt_side4 w' h4
      refine cleared ?_ m hm hv h0
      by_cases hne : n.term.destinationAddress = []
      · rw [c3 hne]
        simp
      · by_cases hf : Ver.v4 ∈ families tg.type (familyOf tg.type n.term)
        · rcases (c5 hne hf).2 with ⟨hex, hst, rfl⟩ | ⟨_, hd⟩
          · rcases hd with ⟨n, hn, hv⟩ | hd | ⟨hsne, ⟨x, hx0, hx⟩, hany⟩
            · exact absurd hv (hex n hn)
            · rcases hd with ⟨n, hn, hd⟩ | hd
              · exact .inl (hasAny_iff.2 ⟨n, List.mem_filter.2 ⟨hn, by simp [hd.1]⟩, hd⟩)
              · exact .inr fun n hn => hd n (List.mem_filter.1 hn).1
            · exfalso
              unfold source4 at h2
              rw [e1, e2] at h2
              obtain ⟨_, _, _, _, g5⟩ := nsxt_side4 w h2
              obtain ⟨g6, g7⟩ := g5 hsne hf
              have hs4 : s4 ≠ [] := by
                rintro rfl
                exact den_nil ((g6 x hx0).2 hx)
              have hno : hasAny s4 = false := by
                rcases g7 with ⟨g7, _, g8⟩ | ⟨_, g7⟩
                · rw [← Bool.not_eq_true]
                  intro hA
                  rw [g8] at hA
                  obtain ⟨n, hn, hA⟩ := hasAny_iff.1 hA
                  rcases hany with ⟨k, hk, hv⟩ | hany
                  · exact g7 k hk hv
                  · exact hany ⟨n, (List.mem_filter.1 hn).1, hA⟩
                · exact any_zero g7
              rw [hno] at hst
              simp at hst
              exact hs4 hst
          · exact .inr (noZero_of hd)
        · rw [c4 hf]
          simp
    · rw [e3, e4] at h5
      rw [side6 w' h5 m hm] at hv
      cases hv

/-! ### C131 -/

theorem findGroup_ok {err : Err} : ∀ {l : List String} {o : Option String}, findGroup err l = .ok o → ∀ g,
    o = some g ↔ ∃ pre post, l = pre ++ "securitygroup" :: g :: post ∧ "securitygroup" ∉ pre
  | [], o, h, g => by
    cases h
    refine iff_of_false (by simp) ?_
    rintro ⟨pre, post, h, _⟩
    simp at h
  | x :: xs, o, h, g => by
    unfold findGroup at h
    split at h
    next hx =>
      subst hx
      split at h
      · cases h
      next y ys =>
        cases h
        constructor
        · intro e
          cases e
          exact ⟨[], ys, rfl, by simp⟩
        · rintro ⟨pre, post, h, hn⟩
          cases pre with
          | nil =>
            simp only [List.nil_append, List.cons.injEq, true_and] at h
            rw [h.1]
          | cons z pre =>
            simp only [List.cons_append, List.cons.injEq] at h
            exact absurd (by rw [← h.1]; simp) hn
    next hx =>
      rw [findGroup_ok h g]
      constructor
      · rintro ⟨pre, post, h, hn⟩
        exact ⟨x :: pre, post, by rw [h]; rfl, by simp [Ne.symm hx, hn]⟩
      · rintro ⟨pre, post, h, hn⟩
        cases pre with
        | nil =>
          simp only [List.nil_append, List.cons.injEq] at h
          exact absurd h.1 hx
        | cons z pre =>
          simp only [List.cons_append, List.cons.injEq] at h
          exact ⟨pre, post, h.2, fun hm => hn (List.mem_cons_of_mem _ hm)⟩

/-- What is read from the options of a header. -/
theorem parseOptions_reads {err : Err} {opts : List String} {tg : Target} (h : parseOptions err opts = .ok tg) :
    opts.head? = some tg.name ∧ (∀ i, tg.id = some i ↔ opts[2]? = some i ∧ i ≠ "securitygroup") ∧
      ∀ g, tg.group = some g ↔ Spec.Nsx.Group opts g := by
  unfold parseOptions at h
  split at h
  next name type rest =>
    split at h
    · cases h
    · split at h
      · cases h
      · obtain ⟨o, ho, h⟩ := bind_ok h
        cases h
        dsimp only
        refine ⟨rfl, fun i => ?_, fun g => ?_⟩
        · cases rest with
          | nil => simp [splitId]
          | cons x xs =>
            have hs : splitId (x :: xs) = if x = "securitygroup" then (none, x :: xs) else (some x, xs) := rfl
            rw [hs]
            split
            next e =>
              subst e
              simp only [List.getElem?_cons_succ, List.getElem?_cons_zero, Option.some.injEq]
              refine iff_of_false (by simp) ?_
              rintro ⟨rfl, h⟩
              exact h rfl
            next e =>
              simp only [List.getElem?_cons_succ, List.getElem?_cons_zero, Option.some.injEq]
              exact ⟨fun h => ⟨h, h ▸ e⟩, fun h => h.1⟩
        · rw [findGroup_ok ho g]
          unfold Spec.Nsx.Group
          cases rest with
          | nil =>
            refine iff_of_false ?_ ?_
            · rintro ⟨pre, post, h, _⟩
              simp [splitId] at h
            · rintro ⟨n, t, pre, post, h, _⟩
              simp at h
          | cons x xs =>
            have hs : splitId (x :: xs) = if x = "securitygroup" then (none, x :: xs) else (some x, xs) := rfl
            rw [hs]
            split
            next e =>
              subst e
              constructor
              · rintro ⟨pre, post, h, hn⟩
                exact ⟨name, type, pre, post, by simpa using h, hn⟩
              · rintro ⟨n, t, pre, post, h, hn⟩
                simp only [List.cons_append, List.cons.injEq] at h
                exact ⟨pre, post, h.2.2, hn⟩
            next e =>
              constructor
              · rintro ⟨pre, post, h, hn⟩
                refine ⟨name, type, x :: pre, post, by simpa using h, ?_⟩
                simp [Ne.symm e, hn]
              · rintro ⟨n, t, pre, post, h, hn⟩
                simp only [List.cons_append, List.cons.injEq] at h
                obtain ⟨_, _, h⟩ := h
                cases pre with
                | nil =>
                  simp only [List.nil_append, List.cons.injEq] at h
                  exact absurd h.1 e
                | cons z pre =>
                  simp only [List.cons_append, List.cons.injEq] at h
                  exact ⟨pre, post, h.2, fun hm => hn (List.mem_cons_of_mem _ hm)⟩
  · cases h

/-- **C131**: the section for NSX-V has the name and the id of its header, and its rules are limited to the security group of the
header, if it has one. -/
theorem C131_section {fs : List Nsx.Filter} {sec : Nsx.Section} (h : translateV fs = .ok sec) {f : Nsx.Filter} (hf : f ∈ fs)
    (hh : f.here = true) : f.options.head? = some sec.name ∧
      (∀ i, sec.id = some i ↔ f.options[2]? = some i ∧ i ≠ "securitygroup") ∧
      ∀ g, sec.scope = some g ↔ Spec.Nsx.Group f.options g := by
  obtain ⟨g, hg, tg, h1, h2, h3, h4, _⟩ := nsxv_section h
  have : f = g := by
    have : f ∈ fs.filter Filter.here := List.mem_filter.2 ⟨hf, hh⟩
    rw [hg] at this
    simpa using this
  subst this
  rw [h2, h3, h4]
  exact parseOptions_reads h1

/-- **C131**: the policy for NSX-T has the name of its header, its id is that of the header, or else the name, and it is limited to
the security group of the header, if it has one, given as a path. -/
theorem C131_policy {fs : List Nsx.Filter} {sec : Nsx.Section} (h : translateT fs = .ok sec) {f : Nsx.Filter} (hf : f ∈ fs)
    (hh : f.here = true) : f.options.head? = some sec.name ∧
      (∀ i, f.options[2]? = some i → i ≠ "securitygroup" → sec.id = some i) ∧
      ((∀ i, f.options[2]? = some i → i = "securitygroup") → sec.id = some sec.name) ∧
      ∀ s, sec.scope = some s ↔ ∃ g, Spec.Nsx.Group f.options g ∧
        ((g.toList.head? = some '/' ∧ s = g) ∨ (g.toList.head? ≠ some '/' ∧ s = "/infra/domains/default/groups/" ++ g)) := by
  obtain ⟨g, hg, tg, h1, h2, h3, h4, _⟩ := nsxt_section h
  have : f = g := by
    have : f ∈ fs.filter Filter.here := List.mem_filter.2 ⟨hf, hh⟩
    rw [hg] at this
    simpa using this
  subst this
  rw [h2, h3, h4]
  obtain ⟨r1, r2, r3⟩ := parseOptions_reads h1
  refine ⟨r1, fun i hi hne => ?_, fun hi => ?_, fun s => ?_⟩
  · rw [(r2 i).2 ⟨hi, hne⟩]
    rfl
  · cases hid : tg.id with
    | none => rfl
    | some i =>
      obtain ⟨a, b⟩ := (r2 i).1 hid
      exact absurd (hi i a) b
  · have slash : ∀ g : String, startsWith "/" g = true ↔ g.toList.head? = some '/' := by
      intro g
      unfold startsWith
      have : "/".toList = ['/'] := by decide
      rw [this]
      cases g.toList with
      | nil => simp
      | cons c cs =>
        simp only [List.isPrefixOf, Bool.and_true, List.head?_cons, Option.some.injEq, beq_iff_eq]
        exact eq_comm
    unfold scopeT
    constructor
    · intro h
      obtain ⟨g, hg, rfl⟩ := Option.map_eq_some_iff.1 h
      refine ⟨g, (r3 g).1 hg, ?_⟩
      split
      next hx => exact .inl ⟨(slash g).1 hx, rfl⟩
      next hx => exact .inr ⟨fun h => hx ((slash g).2 h), rfl⟩
    · rintro ⟨g, hg, h⟩
      rw [(r3 g).2 hg]
      rcases h with ⟨h, rfl⟩ | ⟨h, rfl⟩
      · simp [(slash s).2 h]
      · have : startsWith "/" g = false := by
          rw [← Bool.not_eq_true]
          exact fun hx => h ((slash g).1 hx)
        simp [this]

/-! ### C130 -/

/-- The options of a header both tools take. -/
structure NsxHeader (opts : List String) : Prop where
  length : opts.length ≤ 5
  type : Spec.Nsx.typeOf opts = some "inet" ∨ Spec.Nsx.typeOf opts = some "inet6" ∨ Spec.Nsx.typeOf opts = some "mixed"
  last : opts.getLast? ≠ some "securitygroup"

/-- The terms both tools render. -/
structure NsxRenders (opts : List String) (t : Term) : Prop where
  name : t.name.length ≤ 62
  action : t.action ≠ []
  option : t.option = []
  verbatim : t.verbatim = []
  src : ∀ n ∈ t.sourceAddress ++ t.sourceAddressExclude, WF n
  dst : ∀ n ∈ t.destinationAddress ++ t.destinationAddressExclude, WF n
  types : t.icmpType ≠ [] → t.protocol ≠ [] → ∃ v, Spec.Nsx.About opts v ∧
    t.protocol = [if v = .v6 then "icmpv6" else "icmp"] ∧ ∀ s ∈ t.icmpType, ∃ k, (s, k) ∈ Spec.icmpNumbers v

theorem findGroup_total {err : Err} : ∀ {l : List String}, l.getLast? ≠ some "securitygroup" → ∃ o, findGroup err l = .ok o
  | [], _ => ⟨none, rfl⟩
  | x :: xs, h => by
    unfold findGroup
    split
    next hx =>
      cases xs with
      | nil =>
        subst hx
        exact absurd rfl h
      | cons y ys => exact ⟨_, rfl⟩
    next hx =>
      refine findGroup_total fun e => h ?_
      cases xs with
      | nil => cases e
      | cons y ys => rw [List.getLast?_cons_cons]; exact e

theorem parseOptions_total {err : Err} {opts : List String} (h : NsxHeader opts) : ∃ tg, parseOptions err opts = .ok tg := by
  obtain ⟨h1, h2, h3⟩ := h
  match opts, h1, h2, h3 with
  | [], _, h2, _ => simp [Spec.Nsx.typeOf] at h2
  | [_], _, h2, _ => simp [Spec.Nsx.typeOf] at h2
  | name :: type :: rest, h1, h2, h3 =>
    unfold parseOptions
    dsimp only
    have hl : (splitId rest).2.getLast? ≠ some "securitygroup" := by
      intro e
      apply h3
      cases rest with
      | nil => cases e
      | cons x xs =>
        have hs : splitId (x :: xs) = if x = "securitygroup" then (none, x :: xs) else (some x, xs) := rfl
        rw [hs] at e
        rw [List.getLast?_cons_cons, List.getLast?_cons_cons]
        split at e
        · exact e
        · cases xs with
          | nil => cases e
          | cons y ys => rw [List.getLast?_cons_cons]; exact e
    obtain ⟨o, ho⟩ := findGroup_total (err := err) hl
    rw [if_neg (by omega), if_neg (by
      simp only [Spec.Nsx.typeOf, List.getElem?_cons_succ, List.getElem?_cons_zero, Option.some.injEq] at h2
      rcases h2 with rfl | rfl | rfl <;> decide), ho]
    exact ⟨_, rfl⟩

theorem icmpTypes_total {opts : List String} {type : String} (ht : Spec.Nsx.typeOf opts = some type)
    (hk : type = "inet" ∨ type = "inet6" ∨ type = "mixed") {t : Term} (r : NsxRenders opts t) :
    ∃ ts, icmpTypes (familyOf type t) t = .ok ts := by
  unfold icmpTypes
  split
  · exact ⟨_, rfl⟩
  next hne =>
    by_cases h0 : t.icmpType = []
    · rw [h0]
      exact ⟨_, rfl⟩
    · obtain ⟨v, hab, hp, hn⟩ := r.types h0 (by simpa using hne)
      have fam : familyOf type t = v := by
        unfold Spec.Nsx.About at hab
        rw [ht] at hab
        unfold familyOf
        rw [hp]
        rcases hk with rfl | rfl | rfl <;> cases v <;> simp at hab ⊢
      rw [fam]
      have look : ∀ s ∈ t.icmpType, ∃ k, (Spec.icmpNumbers v).lookup s = some k := by
        intro s hs
        obtain ⟨k, hk⟩ := hn s hs
        have : ∀ v, ∀ e ∈ Spec.icmpNumbers v, ((Spec.icmpNumbers v).lookup e.1).isSome = true := by
          intro v
          cases v <;> decide
        exact Option.isSome_iff_exists.1 (this v _ hk)
      have sorted := List.mergeSort_perm (t.icmpType.filterMap fun x => (Spec.icmpNumbers v).lookup x) (fun a b => decide (a ≤ b))
      have pw : (List.mergeSort (t.icmpType.filterMap fun x => (Spec.icmpNumbers v).lookup x)
          (fun a b => decide (a ≤ b))).Pairwise (· ≤ ·) := by
        have := List.pairwise_mergeSort (le := fun a b : Nat => decide (a ≤ b))
          (fun a b c h1 h2 => by simp at *; omega) (fun a b => by simp; omega)
          (t.icmpType.filterMap fun x => (Spec.icmpNumbers v).lookup x)
        exact this.imp (by simp)
      refine ⟨_, (C34_types h0 _).2 ⟨Spec.icmpNumbers v, ?_, look, _, rfl, pw, sorted⟩⟩
      cases v
      · exact .inl ⟨by decide, hp, by decide⟩
      · exact .inr ⟨by decide, hp, by decide⟩

theorem nsx_prepared {actions : List (String × String)} {opts : List String} {type : String}
    {n : NTerm} (r : n.expired = false → NsxRenders opts n.term) :
    Nsx.prepare actions type n = .ok none ∨ n.expired = false ∧ Nsx.prepare actions type n = .ok (some ⟨n, familyOf type n.term⟩) := by
  unfold Nsx.prepare
  split
  · exact .inl rfl
  next he =>
    have he : n.expired = false := by simpa using he
    have r := r he
    split
    next ha => exact absurd ha r.action
    · split
      · exact .inl rfl
      · right
        refine ⟨he, ?_⟩
        have h1 : fixName n.term.name = .ok n.term.name := C33_fits r.name _ _
        have h2 : ∀ v, fixHighPorts {} n.term (afName v) false = .ok n.term := by
          intro v
          unfold fixHighPorts fixEstablished
          rw [r.option]
          cases v <;> rfl
        rw [h1]
        show (fixHighPorts {} n.term _ false >>= _) = _
        rw [h2]
        rfl

theorem early_total {platform : String} {err : Err} {v : Ver} {t : Term} (h1 : t.verbatim = []) (h2 : t.option = []) :
    ∃ b, early platform err v t = .ok b := by
  unfold early
  split
  · exact ⟨_, rfl⟩
  · split
    · exact ⟨_, rfl⟩
    · rw [if_neg (by simp [h1]), h2]
      exact ⟨_, rfl⟩

theorem side_total {fams : List Ver} {v : Ver} {inc exc : List Net} (h : ∀ n ∈ inc ++ exc, WF n) : ∃ r, side fams v inc exc = .ok r := by
  obtain ⟨r, h, _⟩ := side_spec (fams := fams) (v := v) (fun n hn => h n (List.mem_append.2 (.inl hn)))
    (fun n hn => h n (List.mem_append.2 (.inr hn)))
  exact ⟨r, h⟩

theorem without_total {strip : Bool} {inc exc : List Net} (h : ∀ n ∈ inc ++ exc, WF n) :
    ∃ r, without strip (ofVersion .v4 inc) (ofVersion .v4 exc) = .ok r := by
  obtain ⟨r, h, _⟩ := without_spec (strip := strip) (ofVersion_wf (v := .v4) fun n hn => h n (List.mem_append.2 (.inl hn)))
    (ofVersion_wf (v := .v4) fun n hn => h n (List.mem_append.2 (.inr hn))) ofVersion_ver
  exact ⟨r, h⟩

theorem renderV_total {opts : List String} {type : String} (ht : Spec.Nsx.typeOf opts = some type)
    (hk : type = "inet" ∨ type = "inet6" ∨ type = "mixed") {n : NTerm} (r : NsxRenders opts n.term) :
    ∃ x, renderV type ⟨n, familyOf type n.term⟩ = .ok x := by
  unfold renderV
  obtain ⟨b, hb⟩ := early_total (platform := "nsxv") (err := .raised "NsxvAclTermError") (v := familyOf type n.term) r.verbatim r.option
  dsimp only
  rw [hb]
  cases b with
  | true => exact ⟨_, rfl⟩
  | false =>
    show ∃ x, ruleV _ _ = _
    obtain ⟨ts, h0⟩ := icmpTypes_total ht hk r
    obtain ⟨a, h1⟩ := side_total (fams := families type (familyOf type n.term)) (v := .v4) r.src
    obtain ⟨b, h2⟩ := side_total (fams := families type (familyOf type n.term)) (v := .v6) r.src
    obtain ⟨c, h3⟩ := side_total (fams := families type (familyOf type n.term)) (v := .v4) r.dst
    obtain ⟨d, h4⟩ := side_total (fams := families type (familyOf type n.term)) (v := .v6) r.dst
    unfold ruleV
    dsimp only
    rw [h0, h1, h2, h3, h4]
    cases hs : sides type a b c d with
    | none => exact ⟨none, by simp only [bind, Except.bind, hs]⟩
    | some sd => exact ⟨_, by simp only [bind, Except.bind, hs]; rfl⟩

theorem renderT_total {opts : List String} {type : String} (ht : Spec.Nsx.typeOf opts = some type)
    (hk : type = "inet" ∨ type = "inet6" ∨ type = "mixed") {n : NTerm} (r : NsxRenders opts n.term) :
    ∃ x, renderT type ⟨n, familyOf type n.term⟩ = .ok x := by
  unfold renderT
  obtain ⟨b, hb⟩ := early_total (platform := "nsxt") (err := .raised "NsxtAclTermError") (v := familyOf type n.term) r.verbatim r.option
  dsimp only
  rw [hb]
  cases b with
  | true => exact ⟨_, rfl⟩
  | false =>
    show ∃ x, ruleT _ _ = _
    obtain ⟨ts, h0⟩ := icmpTypes_total ht hk r
    have h1 : ∃ a, source4 (families type (familyOf type n.term)) n.term = .ok a := by
      unfold source4
      split
      · exact ⟨_, rfl⟩
      · exact without_total r.src
    obtain ⟨a, h1⟩ := h1
    have h3 : ∃ c, dest4 (families type (familyOf type n.term)) a n.term = .ok c := by
      unfold dest4
      split
      · exact ⟨_, rfl⟩
      · exact without_total r.dst
    obtain ⟨c, h3⟩ := h3
    obtain ⟨b, h2⟩ := side_total (fams := families type (familyOf type n.term)) (v := .v6) r.src
    obtain ⟨d, h4⟩ := side_total (fams := families type (familyOf type n.term)) (v := .v6) r.dst
    unfold ruleT
    dsimp only
    rw [h1]
    show ∃ x, (dest4 _ a n.term >>= _) = _
    rw [h3]
    show ∃ x, (side _ _ _ _ >>= _) = _
    rw [h2]
    show ∃ x, (side _ _ _ _ >>= _) = _
    rw [h4]
    cases hs : sides type (clearAny a) b (clearAny c) d with
    | none => exact ⟨none, by simp only [bind, Except.bind, hs]⟩
    | some sd => exact ⟨_, by simp only [bind, Except.bind, hs, h0]; rfl⟩

theorem noDup {l : List Str} (h : l.Nodup) : Cisco.hasDup l = false := by
  induction l with
  | nil => rfl
  | cons a l ih =>
    rw [List.nodup_cons] at h
    unfold Cisco.hasDup
    rw [ih h.2, Bool.or_false, ← Bool.not_eq_true, List.contains_iff_mem]
    exact h.1

/-- The terms that come out of the term loop. -/
theorem nsx_prepares {e1 e2 : Err} {actions : List (String × String)} {f : Nsx.Filter} (hh : NsxHeader f.options)
    (hn : (f.terms.map fun n => n.term.name).Nodup) (ht : ∀ n ∈ f.terms, n.expired = false → NsxRenders f.options n.term) :
    ∃ q, Nsx.prepareFilter e1 e2 actions f = .ok q ∧ parseOptions e1 f.options = .ok q.target ∧
      ∀ x ∈ q.terms, ∃ n ∈ f.terms, n.expired = false ∧ x = ⟨n, familyOf q.target.type n.term⟩ := by
  obtain ⟨tg, h1⟩ := parseOptions_total (err := e1) hh
  obtain ⟨os, h2⟩ := listM_total (f := Nsx.prepare actions tg.type) (l := f.terms) (by
    intro n hn
    rcases nsx_prepared (actions := actions) (type := tg.type) (ht n hn) with h | ⟨_, h⟩
    · exact ⟨_, h⟩
    · exact ⟨_, h⟩)
  refine ⟨⟨tg, os.filterMap id⟩, ?_, h1, ?_⟩
  · unfold Nsx.prepareFilter
    rw [h1]
    show (if _ then _ else _) = _
    rw [noDup hn, h2]
    rfl
  · intro x hx
    obtain ⟨o, ho, e⟩ := List.mem_filterMap.1 hx
    obtain ⟨n, hn, h⟩ := (listM_mem h2 o).1 ho
    rcases nsx_prepared (actions := actions) (type := tg.type) (ht n hn) with h' | ⟨he, h'⟩
    · rw [h'] at h
      cases h
      cases e
    · rw [h'] at h
      cases h
      cases e
      exact ⟨n, hn, he, rfl⟩

/-- **C130**: one filter for NSX-V with proper options and terms without verbatim texts and options, whose comments have no markup, is
rendered. -/
theorem C130_nsxv_partial {fs : List Nsx.Filter} {f : Nsx.Filter} (hone : fs.filter Filter.here = [f]) (hh : NsxHeader f.options)
    (hn : (f.terms.map fun n => n.term.name).Nodup) (ht : ∀ n ∈ f.terms, n.expired = false → NsxRenders f.options n.term)
    (hc : ∀ n ∈ f.terms, ∀ s ∈ n.comment, '&' ∉ s ∧ '<' ∉ s) : ∃ sec, translateV fs = .ok sec := by
  obtain ⟨q, h1, h2, h3⟩ := nsx_prepares (e1 := .raised "UnsupportedNsxvAccessListError") (e2 := .raised "NsxvDuplicateTermError")
    (actions := actionsV) hh hn ht
  obtain ⟨t1, t2⟩ := parseOptions_ok h2
  have each : ∀ x ∈ q.terms, ∃ r, renderV q.target.type x = .ok r := by
    intro x hx
    obtain ⟨n, hn, he, rfl⟩ := h3 x hx
    exact renderV_total t1 t2 (ht n hn he)
  obtain ⟨rs, hr⟩ : ∃ rs, printV q = .ok rs := by
    unfold printV
    refine listM_total fun x hx => ?_
    obtain ⟨r, hr⟩ := each x hx
    rw [hr]
    exact ⟨_, rfl⟩
  have plain : (rs.any fun x => x.2.isSome && !plainComments x.1) = false := by
    rw [← Bool.not_eq_true, List.any_eq_true]
    rintro ⟨y, hy, h⟩
    unfold printV at hr
    obtain ⟨x, hx, e⟩ := (listM_mem hr y).1 hy
    obtain ⟨r, _, e⟩ := bind_ok e
    cases e
    obtain ⟨n, hn, _, rfl⟩ := h3 x hx
    rw [Bool.and_eq_true, Bool.not_eq_true', ← Bool.not_eq_true] at h
    refine h.2 ?_
    unfold plainComments
    rw [List.all_eq_true]
    intro s hs
    rw [List.all_eq_true]
    intro c hcs
    obtain ⟨k1, k2⟩ := hc n hn s hs
    simp only [Bool.and_eq_true, bne_iff_ne]
    exact ⟨fun e => k1 (e ▸ hcs), fun e => k2 (e ▸ hcs)⟩
  unfold translateV
  rw [hone]
  rw [listM, h1]
  show ∃ sec, printAllV [q] = _
  rw [printAllV.eq_def]
  dsimp only
  rw [hr]
  simp only [bind, Except.bind, plain, Bool.false_eq_true, if_false]
  exact ⟨_, rfl⟩

/-- **C130**: one filter for NSX-T with proper options and terms without verbatim texts and options is rendered. -/
theorem C130_nsxt_partial {fs : List Nsx.Filter} {f : Nsx.Filter} (hone : fs.filter Filter.here = [f]) (hh : NsxHeader f.options)
    (hn : (f.terms.map fun n => n.term.name).Nodup) (ht : ∀ n ∈ f.terms, n.expired = false → NsxRenders f.options n.term) :
    ∃ sec, translateT fs = .ok sec := by
  obtain ⟨q, h1, h2, h3⟩ := nsx_prepares (e1 := .raised "UnsupportedNsxtAccessListError") (e2 := .raised "NsxtDuplicateTermError")
    (actions := actionsT) hh hn ht
  obtain ⟨t1, t2⟩ := parseOptions_ok h2
  obtain ⟨rs, hr⟩ := listM_total (f := renderT q.target.type) (l := q.terms) (by
    intro x hx
    obtain ⟨n, hn, he, rfl⟩ := h3 x hx
    exact renderT_total t1 t2 (ht n hn he))
  unfold translateT
  rw [hone, listM, h1]
  show ∃ sec, printAllT [q] = _
  unfold printAllT
  dsimp only
  rw [hr]
  exact ⟨_, rfl⟩

/-- **C130** is false: a policy with two filters is never rendered, neither for NSX-V nor for NSX-T. -/
theorem C130_refuted_two {fs : List Nsx.Filter} {f g : Nsx.Filter} {gs : List Nsx.Filter} (h : fs.filter Filter.here = f :: g :: gs) :
    (∀ sec, translateV fs ≠ .ok sec) ∧ ∀ sec, translateT fs ≠ .ok sec := by
  constructor
  · intro sec hs
    obtain ⟨x, hx, _⟩ := nsxv_section hs
    rw [h] at hx
    cases hx
  · intro sec hs
    obtain ⟨x, hx, _⟩ := nsxt_section hs
    rw [h] at hx
    cases hx

end Verif.Props
