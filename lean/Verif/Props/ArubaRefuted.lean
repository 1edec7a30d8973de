import Verif.Props.Aruba
import Verif.Props.OpenConfigRefuted

/-!
Concrete cases for the theorems about capirca/lib/aruba.py, and the policies for which C108 to C110 fail.
-/

namespace Verif.Props
open Verif Verif.Spec Verif.Aruba Policy Aclgenerator Nacaddr
open Verif.OpenConfig (OTerm)

/-! ### evaluation on concrete packets -/

instance arDestDec (ds : List Dest) (v : Ver) (name : Str) (x : Nat) : Decidable (Spec.Aruba.DestHas ds v name x) :=
  inferInstanceAs (Decidable (∃ d ∈ ds, _))

instance arSideDec (ds : List Dest) (v : Ver) (x : Nat) (u : Bool) (s : Side) : Decidable (Spec.Aruba.SideHits ds v x u s) := by
  unfold Spec.Aruba.SideHits
  split <;> infer_instance

instance arSvcDec (p : Packet) (s : Svc) : Decidable (Spec.Aruba.SvcHits p s) := by
  unfold Spec.Aruba.SvcHits
  split <;> infer_instance

/-- What a line decides; for concrete cases. -/
def arHit (ds : List Dest) (p : Packet) : Aruba.Line → Option String
  | .verbatim _ => none
  | .rule r =>
    if r.negate = false ∧ (r.v6 = true ↔ p.ver = .v6) ∧
      Spec.Aruba.SideHits ds p.ver p.src (p.hasOption "source-is-user") r.src ∧
      Spec.Aruba.SideHits ds p.ver p.dst (p.hasOption "destination-is-user") r.dst ∧ Spec.Aruba.SvcHits p r.svc
    then r.action else none

theorem arHit_iff {ds : List Dest} {p : Packet} {l : Aruba.Line} {a : String} :
    Spec.Aruba.Hits ds p l a ↔ arHit ds p l = some a := by
  cases l with
  | verbatim s =>
    refine iff_of_false ?_ (by simp [arHit])
    rintro ⟨_, h, _⟩
    cases h
  | rule r =>
    unfold arHit
    dsimp only
    constructor
    · rintro ⟨_, h, h1, h2, h3⟩
      cases h
      rw [if_pos ⟨h1, h3⟩]
      exact h2
    · intro h
      split at h
      next h1 => exact ⟨r, rfl, h1.1, h, h1.2⟩
      · cases h

theorem ar_findSome {L : Type} {hit : L → String → Prop} {f : L → Option String} (hf : ∀ l a, hit l a ↔ f l = some a) :
    ∀ {ls : List L} {a : String}, First hit ls a ↔ ls.findSome? f = some a
  | [], a => iff_of_false Lemmas.first_nil (by simp)
  | l :: ls, a => by
    rw [Lemmas.first_cons, ar_findSome hf, List.findSome?_cons, hf]
    cases h : f l with
    | none => simp [hf, h]
    | some b => simp [hf, h]

/-- What an access list decides; for concrete cases. -/
def arRun (order : PortRange → List Nat) (fs : List Aruba.Filter) (name : String) (p : Packet) : Option (Option String) :=
  match translate order fs with
  | .ok bs => some ((Spec.Aruba.linesOf bs name).findSome? (arHit (Spec.Aruba.destsOf bs) p))
  | .error _ => none

theorem arRun_sound {order : PortRange → List Nat} {fs : List Aruba.Filter} {name : String} {p : Packet} {o : Option String}
    (h : arRun order fs name p = some o) :
    ∃ bs, translate order fs = .ok bs ∧ ∀ a, Spec.Aruba.Decides bs name p a ↔ o = some a := by
  unfold arRun at h
  split at h
  next bs e =>
    cases h
    exact ⟨bs, e, fun a => ar_findSome (hit := Spec.Aruba.Hits _ p) (f := arHit _ p) fun l a => arHit_iff⟩
  · cases h

/-- What a term decides; for concrete cases. -/
def arWant (p : Packet) (t : OTerm) : Option String :=
  if t.expired = false ∧ (t.term.platform = [] ∨ "aruba" ∈ t.term.platform) ∧ "aruba" ∉ t.term.platformExclude ∧ Matches t.term p
  then match t.term.action with
    | [w] => Spec.Aruba.names.lookup w
    | _ => none
  else none

theorem arNames_iff {w a : String} : (w, a) ∈ Spec.Aruba.names ↔ Spec.Aruba.names.lookup w = some a := by
  by_cases h1 : w = "accept"
  · subst h1
    simp [Spec.Aruba.names, eq_comm]
  · by_cases h2 : w = "deny"
    · subst h2
      simp [Spec.Aruba.names, List.lookup, eq_comm]
    · simp [Spec.Aruba.names, List.lookup, h1, h2, beq_eq_false_iff_ne.2 h1, beq_eq_false_iff_ne.2 h2]

theorem arWant_iff {p : Packet} {t : OTerm} {a : String} :
    Flat.Wants "aruba" Spec.Aruba.names t.expired t.term p a ↔ arWant p t = some a := by
  unfold Flat.Wants arWant
  constructor
  · rintro ⟨⟨h1, h2, h3⟩, h4, w, h5, h6⟩
    rw [if_pos ⟨h1, h2, h3, h4⟩, h5]
    exact arNames_iff.1 h6
  · intro h
    split at h
    next h1 =>
      split at h
      next w hw => exact ⟨⟨h1.1, h1.2.1, h1.2.2.1⟩, h1.2.2.2, w, hw, arNames_iff.2 h⟩
      · cases h
    · cases h

/-- What the terms decide; for concrete cases. -/
theorem arTerms_iff {p : Packet} {ts : List OTerm} {a : String} :
    Spec.Aruba.FilterDecides ts p a ↔ ts.findSome? (arWant p) = some a := 
  ar_findSome (f := arWant p) fun _ _ => arWant_iff

/-- The low end of a range first. -/
def lowFirst (r : PortRange) : List Nat := if r.1 = r.2 then [r.1] else [r.1, r.2]

/-- The order CPython has for sets of two numbers that leave different remainders modulo 8, the size of the table of a small
set. -/
def byRemainder (r : PortRange) : List Nat :=
  if r.1 = r.2 then [r.1] else if r.2 % 8 < r.1 % 8 then [r.2, r.1] else [r.1, r.2]

/-- The term passes the checks of the tool. -/
def ArAccepted (t : Term) : Prop :=
  Aruba.initCheck [(["aruba"], [kterm t])] = .ok () ∧ sanityCheck t = .ok ()

instance arAcceptedDec (t : Term) : Decidable (ArAccepted t) := inferInstanceAs (Decidable (_ ∧ _))

/-- A filter with one term is rendered, and decides otherwise about a packet of its family than the term. -/
def ArWrong (order : PortRange → List Nat) (t : Term) (should does : Option String) : Prop :=
  ∃ p bs, ArAccepted t ∧ Coherent p ∧ p.ver = .v4 ∧ translate order [⟨["f"], [{ term := t }]⟩] = .ok bs ∧
    (∀ a, Spec.Aruba.FilterDecides [{ term := t }] p a ↔ should = some a) ∧ ∀ a, Spec.Aruba.Decides bs "f" p a ↔ does = some a

theorem ar_wrong {order : PortRange → List Nat} {t : Term} {should does : Option String} (p : Packet)
    (h1 : ArAccepted t ∧ Coherent p ∧ p.ver = .v4) (h2 : [({ term := t } : OTerm)].findSome? (arWant p) = should)
    (h3 : arRun order [⟨["f"], [{ term := t }]⟩] "f" p = some does) : ArWrong order t should does := by
  obtain ⟨bs, h4, h5⟩ := arRun_sound h3
  refine ⟨p, bs, h1.1, h1.2.1, h1.2.2, h4, fun a => ?_, h5⟩
  rw [arTerms_iff, h2]

/-! ### C108 -/

/-- C108 is false for TCP or UDP without ports: nothing is rendered, a deny vanishes. -/
theorem C108_refuted_noports : ∃ t, t.protocol = ["tcp"] ∧ ArWrong lowFirst t (some "deny") none :=
  ⟨{ name := "t".toList, action := ["deny"], protocol := ["tcp"] }, rfl,
    ar_wrong tcpPacket (by decide +kernel) (by decide +kernel) (by decide +kernel)⟩

/-- C108 is false for ICMP next to other protocols: the others are dropped. -/
theorem C108_refuted_protocols : ∃ t, t.protocol = ["esp", "gre"] ∧ ArWrong lowFirst t (some "deny") none :=
  ⟨{ name := "t".toList, action := ["deny"], protocol := ["esp", "gre"] }, rfl,
    ar_wrong { tcpPacket with proto := "gre" } (by decide +kernel) (by decide +kernel) (by decide +kernel)⟩

/-- C108 is false for ranges whose high end comes first in the set, 135 to 139 for example. -/
theorem C108_refuted_order : ∃ t, t.destinationPort = [(135, 139)] ∧ ArWrong byRemainder t (some "deny") none :=
  ⟨{ name := "t".toList, action := ["deny"], protocol := ["tcp"], destinationPort := [(135, 139)] }, rfl,
    ar_wrong { tcpPacket with dport := 135 } (by decide +kernel) (by decide +kernel) (by decide +kernel)⟩

/-- C108 is false for addresses next to `source-is-user`: they are dropped. -/
theorem C108_refuted_user : ∃ t, t.option = ["source-is-user"] ∧ t.sourceAddress ≠ [] ∧ ArWrong lowFirst t none (some "permit") :=
  ⟨{ name := "t".toList, action := ["accept"], option := ["source-is-user"], sourceAddress := [ip4 10 0 0 0 8] }, rfl, by simp,
    ar_wrong { tcpPacket with src := 1, hasOption := fun o => o = "source-is-user" } (by decide +kernel) (by decide +kernel)
      (by decide +kernel)⟩

/-- C108 is false for terms of other platforms: they are rendered. -/
theorem C108_refuted_platform : ∃ t, t.platform = ["cisco"] ∧ ArWrong lowFirst t none (some "permit") :=
  ⟨{ name := "t".toList, action := ["accept"], platform := ["cisco"] }, rfl,
    ar_wrong tcpPacket (by decide +kernel) (by decide +kernel) (by decide +kernel)⟩

/-- C108 is false for terms that exclude the platform: they are rendered. -/
theorem C108_refuted_exclude : ∃ t, t.platformExclude = ["aruba"] ∧ ArWrong lowFirst t none (some "permit") :=
  ⟨{ name := "t".toList, action := ["accept"], platformExclude := ["aruba"] }, rfl,
    ar_wrong tcpPacket (by decide +kernel) (by decide +kernel) (by decide +kernel)⟩

/-- C108 is false for terms of the other family: they are rendered. -/
theorem C108_refuted_restrict : ∃ t, t.restrictAddressFamily = some "inet6" ∧ ArWrong lowFirst t none (some "permit") :=
  ⟨{ name := "t".toList, action := ["accept"], restrictAddressFamily := some "inet6" }, rfl,
    ar_wrong tcpPacket (by decide +kernel) (by decide +kernel) (by decide +kernel)⟩

/-- C108 is false for terms whose names differ in case only: each gets the addresses of both. -/
theorem C108_refuted_case : ∃ t u : Term, ∃ p bs, t.name ≠ u.name ∧ ArFits lowFirst t ∧ ArFits lowFirst u ∧ Coherent p ∧
    translate lowFirst [⟨["f"], [{ term := t }, { term := u }]⟩] = .ok bs ∧ p.ver = .v4 ∧
    Spec.Aruba.FilterDecides [{ term := t }, { term := u }] p "deny" ∧ Spec.Aruba.Decides bs "f" p "permit" := by
  have h : arRun lowFirst [⟨["f"], [
      { term := { name := "web".toList, action := ["accept"], sourceAddress := [ip4 10 0 0 0 8] } },
      { term := { name := "Web".toList, action := ["deny"], sourceAddress := [ip4 11 0 0 0 8] } }]⟩] "f"
      { tcpPacket with src := 11 * 2 ^ 24 } = some (some "permit") := by decide +kernel
  obtain ⟨bs, h1, h2⟩ := arRun_sound h
  refine ⟨_, _, _, bs, by decide, ?_, ?_, by decide +kernel, h1, rfl, arTerms_iff.2 (by decide +kernel), (h2 _).2 rfl⟩
  · exact { keywords := by decide +kernel, active := by decide, action := ⟨"accept", rfl⟩
            untagged := by constructor <;> decide
            family := rfl, verbatim := rfl, negate := by decide, srcUser := by decide, dstUser := by decide
            protocols := .inl ⟨rfl, rfl⟩, ports := by decide }
  · exact { keywords := by decide +kernel, active := by decide, action := ⟨"deny", rfl⟩
            untagged := by constructor <;> decide
            family := rfl, verbatim := rfl, negate := by decide, srcUser := by decide, dstUser := by decide
            protocols := .inl ⟨rfl, rfl⟩, ports := by decide }

/-- C108 is false for headers that do not name the platform: an access list without name is rendered. -/
theorem C108_refuted_header : ∃ t bs b, translate lowFirst [⟨[], [{ term := t }]⟩] = .ok bs ∧ b ∈ bs ∧ b.name = none ∧
    b.lines = [.rule { action := some "permit" }] :=
  ⟨{ name := "t".toList, action := ["accept"] }, _, _, rfl, List.mem_singleton.2 rfl, rfl, rfl⟩

/-! ### C109 -/

/-- C109 is false: the keyword check refuses no policy at all, whatever keywords it uses, as no platform of a header is
`None`. -/
theorem C109_refuted_never {filters : List (List String × List KTerm)} (h : ∀ f ∈ filters, "" ∉ f.1) :
    Aruba.initCheck filters = .ok () := by
  rcases C35_total (tablesFor "") filters with e | e
  · exact e
  · obtain ⟨f, hf, hm, _⟩ := (C35_refused_partial (g := tablesFor "") (by decide) filters).1 e
    exact absurd hm (h f hf)

/-- C109 is false: source ports are accepted though the generator does not know them, and have no effect. -/
theorem C109_refuted_ports : ∃ t, t.sourcePort = [(53, 53)] ∧
    Aclgenerator.initCheck (tablesFor "aruba") [(["aruba"], [kterm t])] = .error (.raised "UnsupportedFilterError") ∧
    ArWrong lowFirst t none (some "permit") :=
  ⟨{ name := "t".toList, action := ["accept"], protocol := ["udp"], sourcePort := [(53, 53)], destinationPort := [(1024, 65535)] },
    rfl, by decide +kernel,
    ar_wrong { tcpPacket with proto := "udp", sport := 1, dport := 1024, hasOption := fun o => o = "tcp-established" ∨ o = "established" }
      (by decide +kernel) (by decide +kernel) (by decide +kernel)⟩

/-- C109 is false: excluded addresses are accepted though the generator does not know them, and have no effect. -/
theorem C109_refuted_exclude : ∃ t, t.sourceAddressExclude = [ip4 10 1 0 0 16] ∧
    Aclgenerator.initCheck (tablesFor "aruba") [(["aruba"], [kterm t])] = .error (.raised "UnsupportedFilterError") ∧
    ArWrong lowFirst t none (some "permit") :=
  ⟨{ name := "t".toList, action := ["accept"], sourceAddress := [ip4 10 0 0 0 8], sourceAddressExclude := [ip4 10 1 0 0 16] },
    rfl, by decide +kernel,
    ar_wrong { tcpPacket with src := 10 * 2 ^ 24 + 2 ^ 16 } (by decide +kernel) (by decide +kernel) (by decide +kernel)⟩

/-- C109 is false: `reject` is accepted though the generator does not know it, and gives a rule without an action. -/
theorem C109_refuted_reject : ∃ t bs b r, t.action = ["reject"] ∧ ArAccepted t ∧
    Aclgenerator.initCheck (tablesFor "aruba") [(["aruba"], [kterm t])] = .error (.raised "UnsupportedFilterError") ∧
    translate lowFirst [⟨["f"], [{ term := t }]⟩] = .ok bs ∧ b ∈ bs ∧ Aruba.Line.rule r ∈ b.lines ∧ r.action = none :=
  ⟨{ name := "t".toList, action := ["reject"] }, _, _, _, rfl, by decide +kernel, by decide +kernel, rfl,
    List.mem_singleton.2 rfl, List.mem_singleton.2 rfl, rfl⟩

example : ∀ f ∈ [((["aruba", "cisco"] : List String), [kterm { name := "t".toList, action := ["reject"] }])], "" ∉ f.1 := by decide

/-! ### C110 -/

/-- C110 is false for terms whose names differ in case only: their netdestinations have one name. -/
theorem C110_refuted_case : ∃ t u : Term, ∃ bs, t.name ≠ u.name ∧
    translate lowFirst [⟨["f"], [{ term := t }, { term := u }]⟩] = .ok bs ∧
    (Spec.Aruba.destsOf bs).map (fun d => (d.v6, d.name)) = [(false, "web_src".toList), (false, "web_src".toList)] :=
  ⟨{ name := "web".toList, action := ["accept"], sourceAddress := [ip4 10 0 0 0 8] },
    { name := "Web".toList, action := ["deny"], sourceAddress := [ip4 11 0 0 0 8] }, _, by decide, rfl, by decide⟩

/-- C110 is false for terms of one name in two filters: their netdestinations have one name. -/
theorem C110_refuted_filters : ∃ t u : Term, ∃ bs, t.name = u.name ∧
    translate lowFirst [⟨["f"], [{ term := t }]⟩, ⟨["g"], [{ term := u }]⟩] = .ok bs ∧
    (Spec.Aruba.destsOf bs).map (fun d => (d.v6, d.name)) = [(false, "web_src".toList), (false, "web_src".toList)] :=
  ⟨{ name := "web".toList, action := ["accept"], sourceAddress := [ip4 10 0 0 0 8] },
    { name := "web".toList, action := ["deny"], sourceAddress := [ip4 11 0 0 0 8] }, _, rfl, rfl, by decide⟩

/-! ### a concrete case -/

/-- Web traffic of users. -/
def arWeb : Term :=
  { name := "Web".toList, action := ["accept"], protocol := ["tcp", "udp"], destinationPort := [(80, 80), (8000, 8080)],
    option := ["source-is-user"],
    destinationAddress := [ip4 10 0 0 0 8, { ver := .v6, addr := 0x20010db8000000000000000000000000, plen := 32 }] }

/-- Pings. -/
def arPing : Term := { name := "ping".toList, action := ["deny"], protocol := ["icmp"], sourceAddress := [ip4 192 0 0 0 8] }

/-- The rest. -/
def arRest : Term := { name := "rest".toList, action := ["deny"] }

/-- Two filters, one of each family. -/
def arFilters : List Aruba.Filter :=
  [⟨["guests"], [{ term := arWeb }, { term := { name := "old".toList }, expired := true }, { term := arPing }, { term := arRest }]⟩,
   ⟨["guests6", "inet6"], [{ term := arWeb }, { term := arRest }]⟩]

theorem arWeb_fits : ArFits lowFirst arWeb :=
  { keywords := by decide +kernel, active := by decide, action := ⟨"accept", rfl⟩
    untagged := by constructor <;> decide
    family := rfl, verbatim := rfl, negate := by decide, srcUser := by decide, dstUser := by decide
    protocols := .inr (.inr (by decide)), ports := by decide }

theorem arPing_fits : ArFits lowFirst arPing :=
  { keywords := by decide +kernel, active := by decide, action := ⟨"deny", rfl⟩
    untagged := by constructor <;> decide
    family := rfl, verbatim := rfl, negate := by decide, srcUser := by decide, dstUser := by decide
    protocols := .inr (.inl ⟨⟨"icmp", by decide, rfl⟩, rfl⟩), ports := by decide }

theorem arRest_fits : ArFits lowFirst arRest :=
  { keywords := by decide +kernel, active := by decide, action := ⟨"deny", rfl⟩
    untagged := by constructor <;> decide
    family := rfl, verbatim := rfl, negate := by decide, srcUser := by decide, dstUser := by decide
    protocols := .inl ⟨rfl, rfl⟩, ports := by decide }

/-- The hypotheses of C108 and C110 hold for the filters, and there is output. -/
example : ∃ bs, translate lowFirst arFilters = .ok bs ∧ (arFilters.map fun f => f.options.head?).Nodup ∧
    ((Spec.Aruba.termsOf arFilters).map fun e => (e.1, Spec.Aruba.lowered e.2.term.name)).Nodup ∧
    (∀ f ∈ arFilters, ∀ t ∈ f.terms, t.expired = false → ArFits lowFirst t.term) ∧
    (Spec.Aruba.destsOf bs).map (fun d => d.name) = ["web_dst".toList, "ping_src".toList, "web_dst".toList] ∧
    (Spec.Aruba.linesOf bs "guests").length = 6 := by
  refine ⟨_, rfl, by decide, by decide, ?_, by decide, by decide⟩
  intro f hf t ht he
  simp only [arFilters, List.mem_cons, List.not_mem_nil, or_false] at hf
  rcases hf with rfl | rfl
  · simp only [List.mem_cons, List.not_mem_nil, or_false] at ht
    rcases ht with rfl | rfl | rfl | rfl
    · exact arWeb_fits
    · cases he
    · exact arPing_fits
    · exact arRest_fits
  · simp only [List.mem_cons, List.not_mem_nil, or_false] at ht
    rcases ht with rfl | rfl
    · exact arWeb_fits
    · exact arRest_fits

end Verif.Props
