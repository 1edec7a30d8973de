import Verif.Props.Cisco
import Verif.Props.CiscoDoc
import Verif.Spec.CiscoWhole

/-!
C180: from the policy to the router.
-/

namespace Verif.Props
open Verif Verif.Policy Verif.Cisco
open Verif.Spec.CiscoDevice (Entry State loaded family entries Same)
open Verif.Spec.CiscoWhole (ListOf)
open Verif.Spec.Ios
open Verif.Spec (Coherent PWF Packet Matches MatchAddrs MatchPorts MatchProto MatchPrefixes MatchMisc MatchRest AddrMatch OneOf PortMatch
  RangeMatch)

namespace CiscoWholeL

theorem oneList_ok {c : Cfg} {name out : Str} {k : Kind} {dsmo : Bool} {ts : List RTerm} {a : Acl} (h : oneList c name out k dsmo ts = .ok a) :
    renderList c out k dsmo ts = .ok a := by
  unfold oneList at h
  obtain ⟨_, _, h⟩ := bind_ok h
  obtain ⟨b, h1, h⟩ := bind_ok h
  obtain ⟨_, _, h⟩ := bind_ok h
  cases h
  exact h1

theorem renderList_shape {c : Cfg} {name : Str} {k : Kind} {dsmo : Bool} {ts : List RTerm} {a : Acl} (hk : k = .extended ∨ k = .inet6)
    (h : renderList c name k dsmo ts = .ok a) : a.name = name ∧ a.kind = k ∧ a.groupLines = [] := by
  unfold renderList at h
  split at h
  · cases h
  · obtain ⟨kept, _, h⟩ := bind_ok h
    rcases hk with rfl | rfl
    · obtain ⟨ls, _, h⟩ := bind_ok h
      cases h
      exact ⟨rfl, rfl, rfl⟩
    · obtain ⟨ls, _, h⟩ := bind_ok h
      cases h
      exact ⟨rfl, rfl, rfl⟩

/-- The lists of a filter. -/
theorem filter_list {c : Cfg} {opts : List String} {ts : List RTerm} {as : List Acl} (h : renderFilter c opts ts = .ok as)
    {af : Ver} {n : Str} {dsmo : Bool} (hl : ListOf opts af n dsmo) :
    ∃ b a e k, as = b ++ a :: e ∧ renderList c n k dsmo ts = .ok a ∧ ((k = .extended ∧ af = .v4) ∨ (k = .inet6 ∧ af = .v6)) ∧
      ∀ x ∈ e, family x ≠ af := by
  cases hl with
  | bare =>
    unfold renderFilter at h
    obtain ⟨k, h1, h⟩ := bind_ok h
    cases h1
    rw [if_neg (by decide)] at h
    obtain ⟨a, h2, h⟩ := bind_ok h
    cases h
    exact ⟨[], a, [], _, rfl, oneList_ok h2, .inl ⟨rfl, rfl⟩, nofun⟩
  | extended =>
    rename_i name more
    unfold renderFilter at h
    obtain ⟨k, h1, h⟩ := bind_ok h
    cases h1
    rw [if_neg (by decide)] at h
    obtain ⟨a, h2, h⟩ := bind_ok h
    cases h
    refine ⟨[], a, [], _, rfl, ?_, .inl ⟨rfl, rfl⟩, nofun⟩
    have := oneList_ok h2
    cases more <;> simpa using this
  | inet6 hd =>
    rename_i name more
    unfold renderFilter at h
    obtain ⟨k, h1, h⟩ := bind_ok h
    cases h1
    rw [if_neg (by decide)] at h
    obtain ⟨a, h2, h⟩ := bind_ok h
    cases h
    refine ⟨[], a, [], _, rfl, ?_, .inr ⟨rfl, rfl⟩, nofun⟩
    have := oneList_ok h2
    cases more with
    | nil => simpa using this
    | cons m more =>
      have hm : (m == "enable_dsmo") = false := by simpa using hd
      simpa [hm] using this
  | mixed4 =>
    rename_i name more
    unfold renderFilter at h
    obtain ⟨k, h1, h⟩ := bind_ok h
    cases h1
    rw [if_pos rfl] at h
    obtain ⟨a, h2, h⟩ := bind_ok h
    obtain ⟨b, h3, h⟩ := bind_ok h
    cases h
    refine ⟨[], a, [b], .extended, rfl, ?_, .inl ⟨rfl, rfl⟩, ?_⟩
    · have := oneList_ok h2
      cases more <;> simpa using this
    · intro x hx
      cases List.mem_singleton.1 hx
      have := (renderList_shape (.inr rfl) (oneList_ok h3)).2.1
      simp [family, this]
  | mixed6 =>
    unfold renderFilter at h
    obtain ⟨k, h1, h⟩ := bind_ok h
    cases h1
    rw [if_pos rfl] at h
    obtain ⟨a, h2, h⟩ := bind_ok h
    obtain ⟨b, h3, h⟩ := bind_ok h
    cases h
    exact ⟨[a], b, [], .inet6, rfl, oneList_ok h3, .inr ⟨rfl, rfl⟩, nofun⟩

theorem policies_split {c : Cfg} {pre post : List (List String × List RTerm)} {f : List String × List RTerm} {ps : List (Acl × Bool)}
    (h : policies c (pre ++ f :: post) = .ok ps) : ∃ p1 as p2, policies c pre = .ok p1 ∧ renderFilter c f.1 f.2 = .ok as ∧
      policies c post = .ok p2 ∧ ps = p1 ++ as.map (fun a => (a, f.1.contains "configure_replace_compatible")) ++ p2 := by
  induction pre generalizing ps with
  | nil =>
    unfold policies at h
    rw [List.nil_append, concatM] at h
    obtain ⟨x, h1, h⟩ := bind_ok h
    obtain ⟨y, h2, h⟩ := bind_ok h
    cases h
    cases h3 : renderFilter c f.1 f.2 with
    | error e => rw [h3] at h1; cases h1
    | ok as =>
      rw [h3] at h1
      cases h1
      exact ⟨[], as, y, rfl, rfl, h2, rfl⟩
  | cons g pre ih =>
    unfold policies at h
    rw [List.cons_append, concatM] at h
    obtain ⟨x, h1, h⟩ := bind_ok h
    obtain ⟨y, h2, h⟩ := bind_ok h
    cases h
    obtain ⟨p1, as, p2, i1, i2, i3, rfl⟩ := ih h2
    refine ⟨x ++ p1, as, p2, ?_, i2, i3, by simp⟩
    show concatM _ (g :: pre) = _
    rw [concatM, h1]
    show (do let ys ← policies c pre; Except.ok (x ++ ys)) = _
    rw [i1]
    rfl

end CiscoWholeL
open CiscoWholeL

/-- **C180**: whatever a router has before, after the configuration for a policy is loaded, the access list that a filter stands for decides about
every packet of its family as the filter: it permits (denies) the packet exactly if the first live term that matches it accepts
(denies, rejects) it. Missing: filters with the option `configure_replace_compatible` and names that a later list has, see C177; terms outside
`Fits`, see C60; standard lists and lists with groups. -/
theorem C180_router_partial {c : Cfg} (hc : c ∈ [ios, xr, nx, eos, brocade]) {pre post : List (List String × List RTerm)}
    {opts : List String} {ts : List RTerm} {out : List Out} (h : document c (pre ++ (opts, ts) :: post) = .ok out)
    {af : Ver} {n : Str} {dsmo : Bool} (hl : ListOf opts af n dsmo) (hk : "configure_replace_compatible" ∉ opts)
    (hu : ∀ g ∈ post, ∀ as, renderFilter c g.1 g.2 = .ok as → ∀ a ∈ as, ¬ (family a = af ∧ a.name = n))
    (hf : ∀ r ∈ ts, Live c.platform r → FamilyOk af r.term → (∃ a, Fits c af dsmo r.term a) ∧ PWF r.term.destinationPort)
    (d : State) :
    ∃ ls, (loaded c.platform d out).lists af (String.ofList n) = ls.map .inl ∧
      ∀ p : Packet, Coherent p → p.ver = af → ∀ permit, Decides af ls p permit ↔ PolicyDecides c.platform ts p permit := by
  have h' := h
  unfold document at h'
  obtain ⟨ps, hp, _⟩ := bind_ok h'
  obtain ⟨p1, as, p2, e1, e2, e3, e4⟩ := policies_split hp
  obtain ⟨b, a, e, k, rfl, ha, hk', he⟩ := filter_list e2 hl
  obtain ⟨s1, s2, s3⟩ := renderList_shape (hk'.imp And.left And.left) ha
  have hfam : family a = af := by
    unfold family
    rw [s2]
    rcases hk' with ⟨rfl, rfl⟩ | ⟨rfl, rfl⟩
    · rw [if_neg (by decide)]
    · rw [if_pos (by decide)]
  have hkeep : opts.contains "configure_replace_compatible" = false := by simpa using hk
  have hns : a.kind ≠ .standard := by
    rw [s2]
    rcases hk' with ⟨rfl, _⟩ | ⟨rfl, _⟩ <;> decide
  have key := C177_lists_partial hp h (before := p1 ++ b.map fun a => (a, false)) (after := (e.map fun a => (a, false)) ++ p2) (a := a)
    (by rw [e4]; simp only [hkeep, List.map_append, List.map_cons, List.append_assoc, List.cons_append]) (by
      intro q hq
      rcases List.mem_append.1 hq with hq | hq
      · obtain ⟨x, hx, rfl⟩ := List.mem_map.1 hq
        exact fun hs => he x hx (hs.1.symm.trans hfam)
      · unfold policies at e3
        obtain ⟨g, hg, ys, hys, hm⟩ := ((concatM_ok e3).2 q).1 hq
        cases hr : renderFilter c g.1 g.2 with
        | error er => rw [hr] at hys; cases hys
        | ok zs =>
          rw [hr] at hys
          cases hys
          obtain ⟨z, hz, rfl⟩ := List.mem_map.1 hm
          exact fun hs => hu g hg zs hr z hz ⟨hs.1.symm.trans hfam, hs.2.symm.trans s1⟩)
    (fun _ hs => absurd hs hns) (fun hs => absurd hs hns) d
  rw [hfam, s1] at key
  refine ⟨a.lines, by rw [key, entries, s3]; simp, fun p hp hv permit => ?_⟩
  exact C60_filter_partial hc hk' (by
    intro hv6
    subst hv6
    cases hl <;> rfl) hf ha hp hv permit

/-! ### concrete cases -/

/-- A policy of three filters; the first and the last have the same name, but not the same family. -/
def wholePolicy : List (List String × List RTerm) :=
  [(["edge", "inet6"], [docTerm "t" "deny"]), (["edge", "mixed"], exFilter), (["edge", "inet6"], [docTerm "u" "accept"])]

/-- The hypotheses of C180 for the IPv4 list of the mixed filter. -/
example : (∃ out, document ios wholePolicy = .ok out) ∧ ListOf ["edge", "mixed"] .v4 "edge".toList false ∧
    (∀ g ∈ [(["edge", "inet6"], [docTerm "u" "accept"])], ∀ as, renderFilter ios g.1 g.2 = .ok as →
      ∀ a ∈ as, ¬ (family a = .v4 ∧ a.name = "edge".toList)) ∧
    (∀ r ∈ exFilter, Live ios.platform r → FamilyOk .v4 r.term →
      (∃ a, Fits ios .v4 false r.term a) ∧ PWF r.term.destinationPort) := by
  refine ⟨⟨_, rfl⟩, .mixed4, ?_, ?_⟩
  · intro g hg as h a ha
    cases List.mem_singleton.1 hg
    have e : renderFilter ios ["edge", "inet6"] [docTerm "u" "accept"] = .ok as := h
    have : ∀ as, renderFilter ios ["edge", "inet6"] [docTerm "u" "accept"] = .ok as → ∀ a ∈ as, family a = .v6 := by
      intro as h
      cases h
      decide +kernel
    exact fun hs => absurd ((this as e a ha).symm.trans hs.1) (by decide)
  · intro r hr hl hf
    simp only [exFilter, List.mem_cons, List.not_mem_nil, or_false] at hr
    rcases hr with rfl | rfl | rfl | rfl | rfl
    · exact absurd hf (by unfold FamilyOk; decide)
    · cases hl.1
    · exact ⟨⟨"next", by constructor <;> decide +kernel⟩, by unfold PWF; decide⟩
    · exact ⟨⟨"accept", exEst_fits4⟩, by unfold PWF; decide⟩
    · exact ⟨⟨"deny", exIcmp_fits⟩, by unfold PWF; decide⟩

theorem docTerm_fits_ios : Fits ios .v4 false (docTerm "u" "accept").term "accept" := by constructor <;> decide +kernel
theorem docTerm_fits_xr : Fits xr .v4 false (docTerm "u" "accept").term "accept" := by constructor <;> decide +kernel
theorem docTerm_fits_nx : Fits nx .v4 false (docTerm "u" "accept").term "accept" := by constructor <;> decide +kernel
theorem docTerm_fits_eos : Fits eos .v4 false (docTerm "u" "accept").term "accept" := by constructor <;> decide +kernel
theorem docTerm_fits_brocade : Fits brocade .v4 false (docTerm "u" "accept").term "accept" := by constructor <;> decide +kernel

theorem docTerm_fits {c : Cfg} (hc : c ∈ [ios, xr, nx, eos, brocade]) : Fits c .v4 false (docTerm "u" "accept").term "accept" := by
  simp only [List.mem_cons, List.not_mem_nil, or_false] at hc
  rcases hc with rfl | rfl | rfl | rfl | rfl
  · exact docTerm_fits_ios
  · exact docTerm_fits_xr
  · exact docTerm_fits_nx
  · exact docTerm_fits_eos
  · exact docTerm_fits_brocade

theorem docTerm_means (n a : String) (p : Packet) : Means (docTerm n a).term p := by
  refine .inl ⟨List.not_mem_nil, ?_⟩
  simp [docTerm, Matches, MatchAddrs, MatchPorts, MatchProto, MatchPrefixes, MatchMisc, MatchRest, AddrMatch, OneOf, PortMatch, RangeMatch]

theorem docTerm_decides (platform n a : String) (p : Packet) (permit : Bool) (h : Permits a permit) :
    PolicyDecides platform [docTerm n a] p permit :=
  ⟨[], docTerm n a, [], a, rfl, ⟨rfl, .inl rfl, List.not_mem_nil⟩, docTerm_means n a p, rfl, h, fun _ hs => absurd hs List.not_mem_nil⟩

/-- **C180** is false for a filter with a later one of its name: the router permits every IPv4 packet though the filter denies it, and no
generator refuses the policy. -/
theorem C180_refuted_same : ∀ c ∈ [ios, xr, nx, eos, brocade], ∃ out,
    document c [(["edge"], [docTerm "t" "deny"]), (["edge"], [docTerm "u" "accept"])] = .ok out ∧
    ∀ (d : State) (p : Packet), Coherent p → p.ver = .v4 → PolicyDecides c.platform [docTerm "t" "deny"] p false ∧
      ∃ ls, (loaded c.platform d out).lists .v4 "edge" = ls.map .inl ∧ Decides .v4 ls p true := by
  intro c hc
  obtain ⟨out, ho, _⟩ := C177_refuted_same c hc
  refine ⟨out, ho, fun d p hp hv => ⟨docTerm_decides _ _ _ p false (.inr ⟨.inl rfl, rfl⟩), ?_⟩⟩
  have hf : ∀ r ∈ [docTerm "u" "accept"], Live c.platform r → FamilyOk .v4 r.term →
      (∃ a, Fits c .v4 false r.term a) ∧ PWF r.term.destinationPort := by
    intro r hr _ _
    rw [List.mem_singleton.1 hr]
    exact ⟨⟨"accept", docTerm_fits hc⟩, nofun⟩
  have ho' : document c ([(["edge"], [docTerm "t" "deny"])] ++ (["edge"], [docTerm "u" "accept"]) :: []) = .ok out := by
    rw [List.singleton_append]
    exact ho
  obtain ⟨ls, h1, h2⟩ := C180_router_partial hc ho' ListOf.bare (by decide) (fun g hg => absurd hg List.not_mem_nil) hf d
  rw [String.ofList_toList] at h1
  exact ⟨ls, h1, (h2 p hp hv true).2 (docTerm_decides _ _ _ p true (.inl ⟨rfl, rfl⟩))⟩

end Verif.Props
