import Verif.Props.Asa
import Verif.Props.OpenConfigRefuted
import Verif.Props.GcpHfRefuted

/-!
Concrete cases for the theorems about capirca/lib/ciscoasa.py, and the policies for which C115 to C117 fail.
-/

namespace Verif.Props
open Verif Verif.Spec Verif.Asa Policy Aclgenerator Nacaddr
open Verif.Cisco (Tok RTerm)

/-! ### evaluation on concrete packets -/

instance asaAddrDec (x : Nat) (a : Asa.Addr) : Decidable (Spec.Asa.InAddr x a) := by
  unfold Spec.Asa.InAddr
  split <;> infer_instance

/-- A port is given; for concrete cases. -/
def asaPorts (proto : String) (x : Nat) : List Tok → Bool
  | [] => true
  | [a] => Spec.Asa.numberOf (Spec.Asa.portNames proto) a == some x
  | [a, b] =>
    match Spec.Asa.numberOf (Spec.Asa.portNames proto) a, Spec.Asa.numberOf (Spec.Asa.portNames proto) b with
    | some i, some j => decide (i ≤ x ∧ x ≤ j)
    | _, _ => false
  | _ => false

theorem asaPorts_iff {proto : String} {x : Nat} : ∀ {l : List Tok}, Spec.Asa.InPorts proto x l ↔ asaPorts proto x l = true
  | [] => by simp [Spec.Asa.InPorts, asaPorts]
  | [a] => by simp [Spec.Asa.InPorts, asaPorts]
  | [a, b] => by
    unfold Spec.Asa.InPorts asaPorts
    dsimp only
    cases h1 : Spec.Asa.numberOf (Spec.Asa.portNames proto) a with
    | none => simp
    | some i => cases h2 : Spec.Asa.numberOf (Spec.Asa.portNames proto) b <;> simp
  | _ :: _ :: _ :: _ => by simp [Spec.Asa.InPorts, asaPorts]

/-- An entry matches; for concrete cases. -/
def asaHit (e : Entry) (p : Packet) : Bool :=
  decide (p.ver = .v4) &&
  (e.proto == "ip" || Spec.Asa.protoNames.any fun n => n.1 == e.proto && decide ((p.proto, n.2) ∈ iana)) &&
  decide (Spec.Asa.InAddr p.src e.src ∧ Spec.Asa.InAddr p.dst e.dst) &&
  (asaPorts e.proto p.sport e.sport && asaPorts e.proto p.dport e.dport) &&
  decide (e.sport ++ e.dport ≠ [] → e.proto ∈ ["tcp", "udp", "sctp"]) &&
  match e.icmp with
  | none => true
  | some w =>
    match Spec.Asa.numberOf Spec.Asa.icmpTypeNames w with
    | some k => decide ((p.icmpType, k) ∈ icmpV4)
    | none => false

theorem asaHit_iff {e : Entry} {p : Packet} : Spec.Asa.Hits e p ↔ asaHit e p = true := by
  have hproto : (e.proto = "ip" ∨ ∃ n, (e.proto, n) ∈ Spec.Asa.protoNames ∧ (p.proto, n) ∈ iana) ↔
      (e.proto == "ip" || Spec.Asa.protoNames.any fun n => n.1 == e.proto && decide ((p.proto, n.2) ∈ iana)) = true := by
    simp only [Bool.or_eq_true, beq_iff_eq, List.any_eq_true, Bool.and_eq_true, decide_eq_true_eq]
    refine or_congr Iff.rfl ⟨fun ⟨n, h1, h2⟩ => ⟨_, h1, rfl, h2⟩, fun ⟨x, h1, h2, h3⟩ => ⟨x.2, ?_, h3⟩⟩
    rw [← h2]
    exact h1
  have hicmp : (∀ w, e.icmp = some w → ∃ k, Spec.Asa.numberOf Spec.Asa.icmpTypeNames w = some k ∧ (p.icmpType, k) ∈ icmpV4) ↔
      (match e.icmp with
        | none => true
        | some w =>
          match Spec.Asa.numberOf Spec.Asa.icmpTypeNames w with
          | some k => decide ((p.icmpType, k) ∈ icmpV4)
          | none => false) = true := by
    cases e.icmp with
    | none => simp
    | some w => cases h : Spec.Asa.numberOf Spec.Asa.icmpTypeNames w <;> simp [h]
  unfold asaHit
  rw [Bool.and_eq_true, Bool.and_eq_true, Bool.and_eq_true, Bool.and_eq_true, Bool.and_eq_true, Bool.and_eq_true,
    ← hproto, ← hicmp, decide_eq_true_eq, decide_eq_true_eq, decide_eq_true_eq, ← asaPorts_iff, ← asaPorts_iff]
  constructor
  · intro h
    exact ⟨⟨⟨⟨⟨h.ver, h.proto⟩, h.src, h.dst⟩, h.sport, h.dport⟩, h.ports⟩, h.icmp⟩
  · rintro ⟨⟨⟨⟨⟨h1, h2⟩, h3, h4⟩, h5, h6⟩, h7⟩, h8⟩
    exact ⟨h1, h2, h3, h4, h5, h6, h7, h8⟩

/-- What an entry decides; for concrete cases. -/
def asaDoes (p : Packet) (e : Entry) : Option String :=
  if asaHit e p && (e.action == some "permit" || e.action == some "deny") then e.action else none

theorem asaDoes_iff {p : Packet} {e : Entry} {a : String} :
    (Spec.Asa.Hits e p ∧ e.action = some a ∧ (a = "permit" ∨ a = "deny")) ↔ asaDoes p e = some a := by
  rw [asaHit_iff]
  unfold asaDoes
  constructor
  · rintro ⟨h1, h2, h3⟩
    rw [if_pos, h2]
    rw [h1, h2]
    rcases h3 with rfl | rfl <;> rfl
  · intro h
    split at h
    next h' =>
      simp only [Bool.and_eq_true, Bool.or_eq_true, beq_iff_eq] at h'
      rw [h] at h'
      exact ⟨h'.1, h, by simpa using h'.2⟩
    · cases h

/-- What a term wants; for concrete cases. -/
def asaWant (p : Packet) (r : RTerm) : Option String :=
  if Spec.Asa.Live r ∧ Matches r.term p then
    match r.term.action with
    | [w] => Spec.Asa.actionNames.lookup w
    | _ => none
  else none

theorem asa_lookup {w a : String} : Spec.Asa.actionNames.lookup w = some a ↔ (w, a) ∈ Spec.Asa.actionNames := by
  constructor
  · exact Cisco.mem_of_lookup'
  · intro h
    simp only [Spec.Asa.actionNames, List.mem_cons, Prod.mk.injEq, List.not_mem_nil, or_false] at h
    rcases h with ⟨rfl, rfl⟩ | ⟨rfl, rfl⟩ | ⟨rfl, rfl⟩ | ⟨rfl, rfl⟩ <;> rfl

theorem asaWant_iff {p : Packet} {r : RTerm} {a : String} :
    Flat.Wants "ciscoasa" Spec.Asa.actionNames r.expired r.term p a ↔ asaWant p r = some a := by
  unfold asaWant Flat.Wants
  constructor
  · rintro ⟨h1, h2, w, hw, hn⟩
    rw [if_pos ⟨h1, h2⟩, hw]
    exact asa_lookup.2 hn
  · intro h
    split at h
    next h1 =>
      split at h
      next w hw => exact ⟨h1.1, h1.2, w, hw, asa_lookup.1 h⟩
      · cases h
    · cases h

/-- The term passes the checks of the tool. -/
def AsaAccepted (t : Term) : Prop := initCheck Verif.Asa.tables [(["ciscoasa"], [kterm t])] = .ok () ∧ sanityCheck t = .ok ()

instance asaAcceptedDec (t : Term) : Decidable (AsaAccepted t) := inferInstanceAs (Decidable (_ ∧ _))

/-- No verbatim text among the lines; for concrete cases. -/
def noVerbatim (ls : List Asa.Line) : Bool := ls.all fun l => match l with
  | .verbatim _ => false
  | _ => true

/-- The tool takes the filters. About some IPv4 packet the first filter decides `want`; the list named after it decides `got`.
-/
def AsaSays (name : String) (ts : List RTerm) (post : List Asa.Filter) (want got : Option String) : Prop :=
  ∃ p ls, (∀ f ∈ (⟨[name], ts⟩ : Asa.Filter) :: post, ∀ r ∈ f.terms, AsaAccepted r.term) ∧ Coherent p ∧ p.ver = .v4 ∧
    Verif.Asa.translate (⟨[name], ts⟩ :: post) = .ok ls ∧
    (∀ a, Spec.Asa.PolicyDecides ts p a ↔ want = some a) ∧ ∀ a, Spec.Asa.Decides name ls p a ↔ got = some a

/-- The decidable part. -/
def asaCheck (name : String) (ts : List RTerm) (post : List Asa.Filter) (p : Packet) (want got : Option String) : Bool :=
  decide (∀ f ∈ (⟨[name], ts⟩ : Asa.Filter) :: post, ∀ r ∈ f.terms, AsaAccepted r.term) && decide (Coherent p ∧ p.ver = .v4) &&
  ts.findSome? (asaWant p) == want &&
  match Verif.Asa.translate (⟨[name], ts⟩ :: post) with
  | .ok ls => noVerbatim ls && (Spec.Asa.listed name ls).findSome? (asaDoes p) == got
  | .error _ => false

theorem asa_says {name : String} {ts : List RTerm} {post : List Asa.Filter} {want got : Option String} (p : Packet)
    (h : asaCheck name ts post p want got = true) : AsaSays name ts post want got := by
  unfold asaCheck at h
  split at h
  next ls hls =>
    simp only [Bool.and_eq_true, decide_eq_true_eq, beq_iff_eq] at h
    obtain ⟨⟨⟨a1, a2⟩, a3⟩, a4, a5⟩ := h
    refine ⟨p, ls, a1, a2.1, a2.2, hls, fun a => ?_, fun a => ?_⟩
    · unfold Spec.Asa.PolicyDecides
      rw [hf_findSome (w := asaWant p) (fun x a => asaWant_iff), a3]
    · unfold Spec.Asa.Decides
      rw [hf_findSome (hit := fun e a => Spec.Asa.Hits e p ∧ e.action = some a ∧ (a = "permit" ∨ a = "deny")) (w := asaDoes p)
        (fun x a => asaDoes_iff), a5]
      refine and_iff_right fun s hs => ?_
      have := List.all_eq_true.1 a4 _ hs
      cases this
  · simp at h

/-! ### a case -/

/-- A filter with addresses and exclusions, ports with and without names, types of icmp and an expired term. -/
def asaTerms : List RTerm :=
  [{ term := { name := "gone".toList, action := ["accept"] }, expired := true },
   { term := { name := "web".toList, action := ["accept"], protocol := ["tcp", "udp"], sourceAddress := [ip4 10 0 0 0 8, ip6 32 16],
               sourceAddressExclude := [ip4 10 1 0 0 16], destinationPort := [(80, 80), (8000, 8100)], logging := ["true"] } },
   { term := { name := "ping".toList, action := ["accept"], protocol := ["icmp"], icmpType := ["echo-request"] } },
   { term := { name := "on".toList, action := ["next"], protocol := ["esp"] } },
   { term := { name := "last".toList, action := ["deny"] } }]

theorem asaTerms_fit : ∀ r ∈ asaTerms, AsaFits r.term := by
  intro r hr
  simp only [asaTerms, List.mem_cons, List.not_mem_nil, or_false] at hr
  rcases hr with rfl | rfl | rfl | rfl | rfl
  all_goals
    exact ⟨by decide +kernel, by decide +kernel, ⟨_, rfl⟩, rfl, rfl, ⟨rfl, rfl, by decide, by decide⟩, .inl rfl,
      by simp [ip4, ip6]; try (constructor <;> (try constructor) <;> decide +kernel),
      by simp, by simp, by simp, by simp [Spec.Asa.protoNames, iana], by simp⟩

/-- The hypotheses of C115_partial, C116_partial and C117_partial hold for these terms next to another filter; `next` is left
out for C116_partial. -/
example (p : Packet) (hc : Coherent p) (hv : p.ver = .v4) (ls : List Asa.Line)
    (h : Verif.Asa.translate [⟨["a"], asaTerms⟩, ⟨["b"], []⟩] = .ok ls) (a : String) :
    Spec.Asa.Decides "a" ls p a ↔ Spec.Asa.PolicyDecides asaTerms p a :=
  C115_partial (pre := []) (f := ⟨["a"], asaTerms⟩) h rfl rfl (by decide) (by simp) (by
    intro g hg r hr _
    simp only [List.mem_cons, List.not_mem_nil, or_false] at hg
    rcases hg with rfl | rfl
    · exact (asaTerms_fit r hr).verbatim
    · cases hr) (fun r hr _ => asaTerms_fit r hr) hc hv a

/-- These terms are rendered, and both decide alike in a case where the exclusion matters. -/
example : AsaSays "a" asaTerms [⟨["b"], []⟩] (some "permit") (some "permit") :=
  asa_says { proto := "tcp", src := 10 * 2 ^ 24 + 5, dst := 7, dport := 8050, sport := 1024 } (by decide +kernel)

example : AsaSays "a" asaTerms [⟨["b"], []⟩] (some "deny") (some "deny") :=
  asa_says { proto := "tcp", src := 10 * 2 ^ 24 + 2 ^ 16 + 5, dst := 7, dport := 8050, sport := 1024 } (by decide +kernel)

example (ls : List Asa.Line) (h : Verif.Asa.translate [⟨["a"], asaTerms.take 3⟩, ⟨["b"], []⟩] = .ok ls) :
    ∀ l ∈ ls, Spec.Asa.Understood ["a", "b"] l :=
  C116_partial h (by simp) (by
    intro f hf r hr _
    simp only [List.mem_cons, List.not_mem_nil, or_false] at hf
    rcases hf with rfl | rfl
    · refine ⟨asaTerms_fit r (List.mem_of_mem_take hr), ?_⟩
      simp only [asaTerms, List.take, List.mem_cons, List.not_mem_nil, or_false] at hr
      rcases hr with rfl | rfl | rfl <;> simp
    · cases hr)

example : (match Verif.Asa.translate [⟨["a"], asaTerms.take 3⟩, ⟨["b"], []⟩] with
    | .ok ls => decide (10 < ls.length)
    | .error _ => false) = true := by decide +kernel

/-- Two terms with a verbatim text each, one of them for another platform. -/
def asaVerbatim : List Asa.Filter :=
  [⟨["a"], [{ term := { name := "t".toList, verbatim := [("ciscoasa", "access-list a extended permit ip any any")] } },
            { term := { name := "u".toList, verbatim := [("cisco", "permit ip any any")] } }]⟩]

example : ∃ ls, Verif.Asa.translate asaVerbatim = .ok ls ∧
    (ls.filterMap fun l => match l with | .verbatim s => some s | _ => none) = ["access-list a extended permit ip any any"] := by
  refine ⟨_, rfl, ?_⟩
  exact C117_partial (fs := asaVerbatim) rfl (by decide)

/-! ### C115 fails -/

/-- C115 is false for established: the option is never rendered, and packets that open connections are let in. -/
theorem C115_refuted_established : AsaSays "a"
    [{ term := { name := "t".toList, action := ["accept"], protocol := ["tcp"], option := ["tcp-established"] } }] []
    none (some "permit") := asa_says tcpPacket (by decide +kernel)

/-- C115 is false for exclusions without addresses: they have no effect. -/
theorem C115_refuted_exclude : AsaSays "a"
    [{ term := { name := "t".toList, action := ["accept"], sourceAddressExclude := [ip4 192 0 0 0 8] } }] []
    none (some "permit") := asa_says tcpPacket (by decide +kernel)

/-- C115 is false for terms with icmpv6 next to other protocols: the whole term is left out. -/
theorem C115_refuted_icmpv6 : AsaSays "a"
    [{ term := { name := "t".toList, action := ["deny"], protocol := ["tcp", "icmpv6"] } },
     { term := { name := "u".toList, action := ["accept"] } }] []
    (some "deny") (some "permit") := asa_says tcpPacket (by decide +kernel)

/-- C115 is false for protocols the device does not know by the name. -/
theorem C115_refuted_protocol : AsaSays "a"
    [{ term := { name := "t".toList, action := ["deny"], protocol := ["vrrp"] } },
     { term := { name := "u".toList, action := ["accept"] } }] []
    (some "deny") (some "permit") := asa_says { proto := "vrrp" } (by decide +kernel)

/-- C115 is false for terms restricted to IPv6: they apply to IPv4. -/
theorem C115_refuted_family : AsaSays "a"
    [{ term := { name := "t".toList, action := ["accept"], restrictAddressFamily := some "inet6" } }] []
    none (some "permit") := asa_says tcpPacket (by decide +kernel)

/-- C115 is false for ports without protocols: the device takes no ports with `ip`. -/
theorem C115_refuted_ports : AsaSays "a"
    [{ term := { name := "t".toList, action := ["deny"], destinationPort := [(80, 80)] } },
     { term := { name := "u".toList, action := ["accept"] } }] []
    (some "deny") (some "permit") := asa_says tcpPacket (by decide +kernel)

/-- C115 is false for two filters with one name: the second empties the list of the first. -/
theorem C115_refuted_twice : AsaSays "a" [{ term := { name := "t".toList, action := ["accept"] } }] [⟨["a"], []⟩]
    (some "permit") none := asa_says tcpPacket (by decide +kernel)

/-! ### C116 fails -/

/-- The tool takes the filters and one line is not a command of the device about one of their lists. -/
def AsaOdd (fs : List Asa.Filter) : Prop :=
  (∀ f ∈ fs, ∀ r ∈ f.terms, AsaAccepted r.term) ∧
  ∃ ls, Verif.Asa.translate fs = .ok ls ∧ ∃ l ∈ ls, ¬ Spec.Asa.Understood (fs.filterMap fun f => f.options.head?) l

/-- C116 is false for terms with icmpv6: two lines begin with `remark`. -/
theorem C116_refuted_icmpv6 :
    AsaOdd [⟨["a"], [{ term := { name := "t".toList, action := ["accept"], protocol := ["icmpv6"] } }]⟩] :=
  ⟨by decide +kernel, _, rfl, .bare, by decide +kernel, id⟩

/-- C116 is false for terms with `next`: their entries have a comment in the place of the action. -/
theorem C116_refuted_next : AsaOdd [⟨["a"], [{ term := { name := "t".toList, action := ["next"] } }]⟩] :=
  ⟨by decide +kernel, _, rfl, .entry "a" { action := some "! next", proto := "ip" }, by decide +kernel, by
    rintro ⟨_, h, _⟩
    revert h
    decide⟩

/-- C116 is false for protocols the device does not know by the name. -/
theorem C116_refuted_protocol :
    AsaOdd [⟨["a"], [{ term := { name := "t".toList, action := ["accept"], protocol := ["vrrp"] } }]⟩] :=
  ⟨by decide +kernel, _, rfl, .entry "a" { action := some "permit", proto := "vrrp" }, by decide +kernel, by
    rintro ⟨_, _, h, _⟩
    revert h
    decide⟩

/-- C116 is false for policies with filters for other platforms: they are rendered as the list `None`. -/
theorem C116_refuted_none :
    AsaOdd [⟨["a"], []⟩, ⟨[], [{ term := { name := "t".toList, action := ["accept"] } }]⟩] :=
  ⟨by decide +kernel, _, rfl, .entry "None" { action := some "permit", proto := "ip" }, by decide +kernel, by
    rintro ⟨h, _⟩
    revert h
    decide⟩

/-! ### C117 fails -/

/-- C117 is false for terms with more than one verbatim text: those after the first are not printed. -/
theorem C117_refuted_more : ∃ fs ls, Verif.Asa.translate fs = .ok ls ∧
    (ls.filterMap fun l => match l with | .verbatim s => some s | _ => none) = ["access-list a extended permit ip any any"] ∧
    Spec.Asa.verbatimOf fs = ["access-list a extended permit ip any any", "access-list a extended deny ip any any"] :=
  ⟨[⟨["a"], [{ term := { name := "t".toList, verbatim := [("ciscoasa", "access-list a extended permit ip any any"),
      ("ciscoasa", "access-list a extended deny ip any any")] } }]⟩], _, rfl, by decide, by decide⟩

/-- C117 is false for texts that come after one for another platform: they are not printed. -/
theorem C117_refuted_after : ∃ fs ls, Verif.Asa.translate fs = .ok ls ∧
    (ls.filterMap fun l => match l with | .verbatim s => some s | _ => none) = [] ∧
    Spec.Asa.verbatimOf fs = ["access-list a extended permit ip any any"] :=
  ⟨[⟨["a"], [{ term := { name := "t".toList, verbatim := [("cisco", "permit ip any any"),
      ("ciscoasa", "access-list a extended permit ip any any")] } }]⟩], _, rfl, by decide, by decide⟩

end Verif.Props
