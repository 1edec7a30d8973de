import Verif.Props.Pcap
import Verif.Props.Policy

/-!
Concrete cases for the theorems about capirca/lib/pcap.py, and the terms and policies for which C49 and C50 fail.
-/

namespace Verif.Props
open Verif Verif.Spec Verif.Spec.Bpf Verif.Pcap Policy Aclgenerator Nacaddr

/-! ### evaluation on concrete packets -/

/-- No address is put in for `localhost`. -/
def noHost : Ver → Nat → Prop := fun _ _ => False

instance (af : String) (p : Packet) : Decidable (OfFamily af p) := inferInstanceAs (Decidable (_ ∧ _))

instance (v : Ver) (a : Nat) : Decidable (noHost v a) := isFalse id

instance (p : Packet) (q : Prim) : Decidable (PrimHolds noHost p q) := by
  cases q <;> unfold PrimHolds <;> infer_instance

def decExpr (p : Packet) : (e : Expr) → Decidable (e.Holds noHost p)
  | .prim q => inferInstanceAs (Decidable (PrimHolds noHost p q))
  | .neg e => @instDecidableNot _ (decExpr p e)
  | .and a b => @instDecidableAnd _ _ (decExpr p a) (decExpr p b)
  | .or a b => @instDecidableOr _ _ (decExpr p a) (decExpr p b)

instance (p : Packet) (e : Expr) : Decidable (e.Holds noHost p) := decExpr p e

instance (o : Option Expr) (p : Packet) : Decidable (∃ e, o = some e ∧ e.Holds noHost p) :=
  match o with
  | none => isFalse (by simp)
  | some e => decidable_of_iff (e.Holds noHost p) (by simp)

instance (ts : List Tok) (p : Packet) : Decidable (Selects noHost ts p) := by unfold Selects; infer_instance

/-- The term passes the checks of the tool and is meant for the platform. -/
def PAccepted (t : Term) : Prop :=
  initCheck Pcap.tables [(["pcap"], [kterm t])] = .ok () ∧ sanityCheck t = .ok () ∧ Active "pcap" (kterm t)

instance (t : Term) : Decidable (PAccepted t) := inferInstanceAs (Decidable (_ ∧ _ ∧ _))

/-- The expression of the term in a filter of the family captures the packet. -/
def Captured (af : String) (t : Term) (p : Packet) : Prop :=
  ∃ ts, Pcap.renderTerm af "" t = .ok (some ts) ∧ Selects noHost ts p

/-- The expression of the term in a filter of the family does not capture the packet. -/
def Missed (af : String) (t : Term) (p : Packet) : Prop :=
  ∃ ts, Pcap.renderTerm af "" t = .ok (some ts) ∧ ¬ Selects noHost ts p

/-- Whether the packet is captured, for concrete terms. -/
def captures (af : String) (t : Term) (p : Packet) : Option Bool :=
  match Pcap.renderTerm af "" t with
  | .ok (some ts) => some (decide (Selects noHost ts p))
  | _ => none

theorem captured_of {af : String} {t : Term} {p : Packet} (h : captures af t p = some true) : Captured af t p := by
  unfold captures at h
  split at h
  next ts e => exact ⟨ts, e, by simpa using h⟩
  · cases h

theorem missed_of {af : String} {t : Term} {p : Packet} (h : captures af t p = some false) : Missed af t p := by
  unfold captures at h
  split at h
  next ts e => exact ⟨ts, e, by simpa using h⟩
  · cases h

/-- A packet of the protocol with the options set, and the ones that follow from flags. -/
def bpfPacket (v : Ver) (proto : String) (flags : List String) : Packet :=
  { ver := v, src := 10 * 2 ^ 24 + 1, dst := 11 * 2 ^ 24 + 2, proto := proto, sport := 2000, dport := 3000,
    hasOption := fun o => if o = "none" then flags.isEmpty else o ∈ flags }

theorem bpfPacket_sound {v : Ver} {proto : String} {flags : List String} (h : proto ∈ iana.map Prod.fst)
    (h4 : v = .v4 → proto ≠ "icmpv6") (h6 : v = .v6 → proto ≠ "icmp")
    (hf : flags ∈ [[], ["syn"], ["rst", "established", "tcp-established"], ["ack", "established", "tcp-established"]]) :
    Sound (bpfPacket v proto flags) where
  proto := h
  icmp4 := h4
  icmp6 := h6
  all := by
    simp only [List.mem_cons, List.not_mem_nil, or_false] at hf
    rcases hf with rfl | rfl | rfl | rfl <;> simp [bpfPacket]
  none := by
    simp only [List.mem_cons, List.not_mem_nil, or_false] at hf
    rcases hf with rfl | rfl | rfl | rfl <;> simp [bpfPacket]
  est := by
    intro _ o ho
    simp only [List.mem_cons, List.not_mem_nil, or_false] at hf ho
    rcases ho with rfl | rfl <;> rcases hf with rfl | rfl | rfl | rfl <;> simp [bpfPacket]

/-! ### C49: terms that are not rendered faithfully -/

/-- C49 is false for source addresses: the destination is compared with them. -/
theorem C49_refuted_source : ∃ t p, PAccepted t ∧ Sound p ∧ OfFamily "inet" p ∧ Missed "inet" t p ∧ Matches t p :=
  ⟨{ name := "t".toList, action := ["accept"], protocol := ["tcp"], sourceAddress := [ip4 10 0 0 0 8] },
    bpfPacket .v4 "tcp" [], by decide +kernel, bpfPacket_sound (by decide) (by decide) (by decide) (by decide), by decide,
    missed_of (by decide +kernel), by decide +kernel⟩

/-- C49 is false for an address list with exclusions: only the excluded addresses of the list match. -/
theorem C49_refuted_exclude : ∃ t p q, PAccepted t ∧ Sound p ∧ Sound q ∧ OfFamily "inet" p ∧ OfFamily "inet" q ∧
    Missed "inet" t p ∧ Matches t p ∧ Captured "inet" t q ∧ ¬ Matches t q := by
  refine ⟨{ name := "t".toList, action := ["accept"], protocol := ["tcp"], destinationAddress := [ip4 11 0 0 0 8],
            destinationAddressExclude := [ip4 11 1 0 0 16] },
    bpfPacket .v4 "tcp" [], { bpfPacket .v4 "tcp" [] with dst := 11 * 2 ^ 24 + 2 ^ 16 }, by decide +kernel,
    bpfPacket_sound (by decide) (by decide) (by decide) (by decide), ?_, by decide, by decide,
    missed_of (by decide +kernel), by decide +kernel, captured_of (by decide +kernel), by decide +kernel⟩
  have := bpfPacket_sound (v := .v4) (proto := "tcp") (flags := []) (by decide) (by decide) (by decide) (by decide)
  exact { this with }

/-- C49 is false for several exclusions: everything matches. -/
theorem C49_refuted_excludes : ∃ t p, PAccepted t ∧ Sound p ∧ OfFamily "inet" p ∧ Captured "inet" t p ∧ ¬ Matches t p :=
  ⟨{ name := "t".toList, action := ["accept"], protocol := ["tcp"],
     destinationAddressExclude := [ip4 11 0 0 0 8, ip4 12 0 0 0 8] },
    bpfPacket .v4 "tcp" [], by decide +kernel, bpfPacket_sound (by decide) (by decide) (by decide) (by decide), by decide,
    captured_of (by decide +kernel), by decide +kernel⟩

/-- C49 is false for `::/0` among the addresses: the other addresses remain, packets of IPv6 are missed. -/
theorem C49_refuted_any6 : ∃ t p, PAccepted t ∧ Sound p ∧ OfFamily "mixed" p ∧ Missed "mixed" t p ∧ Matches t p :=
  ⟨{ name := "t".toList, action := ["accept"], protocol := ["tcp"],
     destinationAddress := [ip4 12 0 0 0 8, { ver := .v6, addr := 0, plen := 0 }] },
    bpfPacket .v6 "tcp" [], by decide +kernel, bpfPacket_sound (by decide) (by decide) (by decide) (by decide), by decide,
    missed_of (by decide +kernel), by decide +kernel⟩

/-- C49 is false if `::/0` is excluded: the whole condition on the address is dropped. -/
theorem C49_refuted_not6 : ∃ t p, PAccepted t ∧ Sound p ∧ OfFamily "mixed" p ∧ Captured "mixed" t p ∧ ¬ Matches t p :=
  ⟨{ name := "t".toList, action := ["accept"], protocol := ["tcp"],
     destinationAddress := [ip4 12 0 0 0 8], destinationAddressExclude := [{ ver := .v6, addr := 0, plen := 0 }] },
    bpfPacket .v4 "tcp" [], by decide +kernel, bpfPacket_sound (by decide) (by decide) (by decide) (by decide), by decide,
    captured_of (by decide +kernel), by decide +kernel⟩

/-- C49 is false for the types of icmpv6: they are not tested. -/
theorem C49_refuted_icmpv6 : ∃ t p, PAccepted t ∧ Sound p ∧ OfFamily "inet6" p ∧ Captured "inet6" t p ∧ ¬ Matches t p := by
  refine ⟨{ name := "t".toList, action := ["accept"], protocol := ["icmpv6"], icmpType := ["echo-request"] },
    { bpfPacket .v6 "icmpv6" [] with icmpType := "redirect-message" }, by decide +kernel, ?_, by decide,
    captured_of (by decide +kernel), by decide +kernel⟩
  have := bpfPacket_sound (v := .v6) (proto := "icmpv6") (flags := []) (by decide) (by decide) (by decide) (by decide)
  exact { this with }

/-- C49 is false for several ICMP codes: `and` and `or` have the same precedence, so the last code must match. -/
theorem C49_refuted_codes : ∃ t p, PAccepted t ∧ Sound p ∧ OfFamily "inet" p ∧ Missed "inet" t p ∧ Matches t p := by
  refine ⟨{ name := "t".toList, action := ["accept"], protocol := ["icmp"], icmpType := ["unreachable"],
            icmpCode := [1, 3] },
    { bpfPacket .v4 "icmp" [] with icmpType := "unreachable", icmpCode := 1 }, by decide +kernel, ?_, by decide,
    missed_of (by decide +kernel), by decide +kernel⟩
  have := bpfPacket_sound (v := .v4) (proto := "icmp") (flags := []) (by decide) (by decide) (by decide) (by decide)
  exact { this with }

/-- C49 is false for `established`: it is ignored. -/
theorem C49_refuted_established : ∃ t p, PAccepted t ∧ Sound p ∧ OfFamily "inet" p ∧ Captured "inet" t p ∧ ¬ Matches t p :=
  ⟨{ name := "t".toList, action := ["accept"], protocol := ["tcp"], option := ["established"] },
    bpfPacket .v4 "tcp" ["syn"], by decide +kernel, bpfPacket_sound (by decide) (by decide) (by decide) (by decide), by decide,
    captured_of (by decide +kernel), by decide +kernel⟩

/-- C49 is false for `tcp-established`: resets are missed. -/
theorem C49_refuted_rst : ∃ t p, PAccepted t ∧ Sound p ∧ OfFamily "inet" p ∧ Missed "inet" t p ∧ Matches t p :=
  ⟨{ name := "t".toList, action := ["accept"], protocol := ["tcp"], option := ["tcp-established"] },
    bpfPacket .v4 "tcp" ["rst", "established", "tcp-established"], by decide +kernel,
    bpfPacket_sound (by decide) (by decide) (by decide) (by decide), by decide,
    missed_of (by decide +kernel), by decide +kernel⟩

/-- C49 is false for `none`: the flags are compared without a mask. -/
theorem C49_refuted_none : ∃ t p, PAccepted t ∧ Sound p ∧ OfFamily "inet" p ∧ Captured "inet" t p ∧ ¬ Matches t p :=
  ⟨{ name := "t".toList, action := ["accept"], protocol := ["tcp"], option := ["none"] },
    bpfPacket .v4 "tcp" ["syn"], by decide +kernel, bpfPacket_sound (by decide) (by decide) (by decide) (by decide), by decide,
    captured_of (by decide +kernel), by decide +kernel⟩

/-- C49 is false for flags in IPv6: no packet matches. -/
theorem C49_refuted_flags6 : ∃ t p, PAccepted t ∧ Sound p ∧ OfFamily "inet6" p ∧ Missed "inet6" t p ∧ Matches t p :=
  ⟨{ name := "t".toList, action := ["accept"], protocol := ["tcp"], option := ["syn"] },
    bpfPacket .v6 "tcp" ["syn"], by decide +kernel, bpfPacket_sound (by decide) (by decide) (by decide) (by decide), by decide,
    missed_of (by decide +kernel), by decide +kernel⟩

/-- C49 is false for options with other protocols: they are ignored. -/
theorem C49_refuted_options : ∃ t p, PAccepted t ∧ Sound p ∧ OfFamily "inet" p ∧ Captured "inet" t p ∧ ¬ Matches t p :=
  ⟨{ name := "t".toList, action := ["accept"], protocol := ["udp"], option := ["established"] },
    bpfPacket .v4 "udp" [], by decide +kernel, bpfPacket_sound (by decide) (by decide) (by decide) (by decide), by decide,
    captured_of (by decide +kernel), by decide +kernel⟩

/-- C49 is false for terms restricted to the other family: the restriction is ignored. -/
theorem C49_refuted_family : ∃ t p, PAccepted t ∧ Sound p ∧ OfFamily "inet" p ∧ Captured "inet" t p ∧ ¬ Matches t p :=
  ⟨{ name := "t".toList, action := ["accept"], protocol := ["udp"], restrictAddressFamily := some "inet6" },
    bpfPacket .v4 "udp" [], by decide +kernel, bpfPacket_sound (by decide) (by decide) (by decide) (by decide), by decide,
    captured_of (by decide +kernel), by decide +kernel⟩

/-- C49 is false for tags: a term with a tag matches packets without it. -/
theorem C49_refuted_tag : ∃ t p, PAccepted t ∧ Sound p ∧ OfFamily "inet" p ∧ Captured "inet" t p ∧ ¬ Matches t p :=
  ⟨{ name := "t".toList, action := ["accept"], protocol := ["udp"], sourceTag := ["db"] },
    bpfPacket .v4 "udp" [], by decide +kernel, bpfPacket_sound (by decide) (by decide) (by decide) (by decide), by decide,
    captured_of (by decide +kernel), by decide +kernel⟩

/-- C49 is false for protocols that are missing in the table: rendering fails with a KeyError. -/
theorem C49_refuted_protocol : ∃ t, PAccepted t ∧ Pcap.renderTerm "inet" "" t = .error .keyError :=
  ⟨{ name := "t".toList, action := ["accept"], protocol := ["gre"] }, by decide +kernel, rfl⟩

/-! ### C50: filters that are not rendered faithfully -/

/-- The expression of the policy captures the packet. -/
def Takes (invert : Bool) (fs : List Filter) (p : Packet) : Prop :=
  ∃ ts, Pcap.render invert fs = .ok ts ∧ Selects noHost ts p

/-- The expression of the policy does not capture the packet. -/
def Leaves (invert : Bool) (fs : List Filter) (p : Packet) : Prop :=
  ∃ ts, Pcap.render invert fs = .ok ts ∧ ¬ Selects noHost ts p

/-- Whether the packet is captured, for concrete filters. -/
def takes (invert : Bool) (fs : List Filter) (p : Packet) : Option Bool :=
  match Pcap.render invert fs with
  | .ok ts => some (decide (Selects noHost ts p))
  | _ => none

theorem takes_of {invert : Bool} {fs : List Filter} {p : Packet} (h : takes invert fs p = some true) : Takes invert fs p := by
  unfold takes at h
  split at h
  next ts e => exact ⟨ts, e, by simpa using h⟩
  · cases h

theorem leaves_of {invert : Bool} {fs : List Filter} {p : Packet} (h : takes invert fs p = some false) :
    Leaves invert fs p := by
  unfold takes at h
  split at h
  next ts e => exact ⟨ts, e, by simpa using h⟩
  · cases h

/-- The first matching term, for concrete filters. -/
def decidesB (actions : List String) (p : Packet) : List PTerm → Bool
  | [] => false
  | r :: rs =>
    if Counts r ∧ Matches r.term p then
      match r.term.action with
      | [a] => decide (a ∈ actions)
      | _ => false
    else decidesB actions p rs

theorem decidesB_iff {actions : List String} {p : Packet} {ts : List PTerm} :
    Decides actions ts p ↔ decidesB actions p ts = true := by
  induction ts with
  | nil =>
    constructor
    · rintro ⟨pre, r, post, a, h, _⟩
      cases pre <;> cases h
    · intro h; cases h
  | cons r ts ih =>
    rw [decidesB]
    by_cases hm : Counts r ∧ Matches r.term p
    · rw [if_pos hm]
      constructor
      · rintro ⟨pre, s, post, a, h, h1, h2, h3, h4, h5⟩
        cases pre with
        | nil => cases h; rw [h3]; simpa using h4
        | cons x pre => cases h; exact absurd hm (h5 _ (.head _))
      · intro h
        split at h
        next a ha => exact ⟨[], r, ts, a, rfl, hm.1, hm.2, ha, by simpa using h, by simp⟩
        · cases h
    · rw [if_neg hm, ← ih]
      constructor
      · rintro ⟨pre, s, post, a, h, h1, h2, h3, h4, h5⟩
        cases pre with
        | nil => cases h; exact absurd ⟨h1, h2⟩ hm
        | cons x pre => cases h; exact ⟨pre, s, post, a, rfl, h1, h2, h3, h4, fun s hs => h5 s (List.mem_cons_of_mem _ hs)⟩
      · rintro ⟨pre, s, post, a, rfl, h1, h2, h3, h4, h5⟩
        refine ⟨r :: pre, s, post, a, rfl, h1, h2, h3, h4, ?_⟩
        intro x hx
        rcases List.mem_cons.1 hx with rfl | hx
        · exact hm
        · exact h5 x hx

instance (actions : List String) (ts : List PTerm) (p : Packet) : Decidable (Decides actions ts p) :=
  decidable_of_iff _ decidesB_iff.symm

/-- All terms of the filter pass the checks of the tool. -/
def FAccepted (f : Filter) : Prop := ∀ r ∈ f.terms, PAccepted r.term

instance (f : Filter) : Decidable (FAccepted f) := inferInstanceAs (Decidable (∀ r ∈ f.terms, PAccepted r.term))

def bpfAccept (proto : String) : PTerm := { term := { name := "a".toList, action := ["accept"], protocol := [proto] } }
def bpfDeny (proto : String) : PTerm := { term := { name := "d".toList, action := ["deny"], protocol := [proto] } }
def bpfAll (action : String) : PTerm := { term := { name := "all".toList, action := [action] } }

/-- C50 is false for two accepting terms: only packets that match both are captured. -/
theorem C50_refuted_accepts : ∃ f p, FAccepted f ∧ Sound p ∧ OfFamily "inet" p ∧ Leaves false [f] p ∧
    Decides ["accept"] f.terms p :=
  ⟨⟨["inet"], [bpfAccept "tcp", bpfAccept "udp"]⟩, bpfPacket .v4 "udp" [], by decide +kernel,
    bpfPacket_sound (by decide) (by decide) (by decide) (by decide), by decide, leaves_of (by decide +kernel), by decide +kernel⟩

/-- C50 is false for a denying term before a term that accepts everything: the denied packets are captured, the others
are not. -/
theorem C50_refuted_deny : ∃ f p q, FAccepted f ∧ Sound p ∧ Sound q ∧ OfFamily "inet" p ∧ OfFamily "inet" q ∧
    Takes false [f] p ∧ ¬ Decides ["accept"] f.terms p ∧ Leaves false [f] q ∧ Decides ["accept"] f.terms q :=
  ⟨⟨["inet"], [bpfDeny "tcp", bpfAll "accept"]⟩, bpfPacket .v4 "tcp" [], bpfPacket .v4 "udp" [], by decide +kernel,
    bpfPacket_sound (by decide) (by decide) (by decide) (by decide),
    bpfPacket_sound (by decide) (by decide) (by decide) (by decide), by decide, by decide, takes_of (by decide +kernel),
    by decide +kernel, leaves_of (by decide +kernel), by decide +kernel⟩

/-- C50 is false for two denying terms: only packets that match both are left out. -/
theorem C50_refuted_denies : ∃ f p, FAccepted f ∧ Sound p ∧ OfFamily "inet" p ∧ Takes false [f] p ∧
    ¬ Decides ["accept"] f.terms p := by
  refine ⟨⟨["inet"], [bpfDeny "tcp", bpfDeny "udp",
      { term := { name := "a".toList, action := ["accept"], destinationAddress := [ip4 11 0 0 0 8] } }]⟩,
    bpfPacket .v4 "tcp" [], by decide +kernel,
    bpfPacket_sound (by decide) (by decide) (by decide) (by decide), by decide, takes_of (by decide +kernel), by decide +kernel⟩

/-- C50 is false for a denying term with conditions after the accepting one: accepted packets are left out. -/
theorem C50_refuted_order : ∃ f p, FAccepted f ∧ Sound p ∧ OfFamily "inet" p ∧ Leaves false [f] p ∧
    Decides ["accept"] f.terms p := by
  refine ⟨⟨["inet"], [{ term := { name := "a".toList, action := ["accept"], destinationAddress := [ip4 11 0 0 0 8] } },
      bpfDeny "tcp"]⟩, bpfPacket .v4 "tcp" [], by decide +kernel,
    bpfPacket_sound (by decide) (by decide) (by decide) (by decide), by decide, leaves_of (by decide +kernel), by decide +kernel⟩

/-- C50 is false for a filter that denies everything: everything is captured. -/
theorem C50_refuted_all : ∃ f p, FAccepted f ∧ Sound p ∧ OfFamily "inet" p ∧ Takes false [f] p ∧
    ¬ Decides ["accept"] f.terms p :=
  ⟨⟨["inet"], [bpfAll "deny"]⟩, bpfPacket .v4 "tcp" [], by decide +kernel,
    bpfPacket_sound (by decide) (by decide) (by decide) (by decide), by decide, takes_of (by decide +kernel), by decide +kernel⟩

/-- C50 is false for the inverted expression of the usual filter: the accepted packets are captured. -/
theorem C50_refuted_invert : ∃ f p, FAccepted f ∧ Sound p ∧ OfFamily "inet" p ∧ Takes true [f] p ∧
    ¬ Decides ["deny", "reject"] f.terms p :=
  ⟨⟨["inet"], [bpfAccept "tcp", bpfAll "deny"]⟩, bpfPacket .v4 "tcp" [], by decide +kernel,
    bpfPacket_sound (by decide) (by decide) (by decide) (by decide), by decide, takes_of (by decide +kernel), by decide +kernel⟩

/-- C50 is false for an accepting term without addresses of the family: everything is captured. -/
theorem C50_refuted_family : ∃ f p, FAccepted f ∧ Sound p ∧ OfFamily "inet6" p ∧ Takes false [f] p ∧
    ¬ Decides ["accept"] f.terms p :=
  ⟨⟨["inet6"], [{ term := { name := "a".toList, action := ["accept"], destinationAddress := [ip4 11 0 0 0 8] } },
      bpfAll "deny"]⟩, bpfPacket .v6 "tcp" [], by decide +kernel,
    bpfPacket_sound (by decide) (by decide) (by decide) (by decide), by decide, takes_of (by decide +kernel), by decide +kernel⟩

/-- C50 is false for several filters: the direction of one stays in force for the next, which has none. -/
theorem C50_refuted_direction : ∃ f g ts us, FAccepted f ∧ FAccepted g ∧ Pcap.render false [g] = .ok ts ∧
    Pcap.render false [f, g] = .ok us ∧ .prim (.localhost "dst") ∉ ts ∧
    (∃ a, us = a ++ .or :: [.lp, .lp, .lp, .prim (.localhost "dst"), .and, .lp, .lp, .prim (.proto "proto \\udp"), .rp, .rp,
      .rp, .rp, .rp]) :=
  ⟨⟨["inet", "in"], [bpfAccept "tcp"]⟩, ⟨["inet"], [bpfAccept "udp"]⟩, _, _, by decide +kernel, by decide +kernel, rfl, rfl,
    by decide +kernel, [.lp, .lp, .lp, .prim (.localhost "dst"), .and, .lp, .lp, .prim (.proto "proto \\tcp"), .rp, .rp,
      .rp, .rp, .rp], by decide +kernel⟩

/-- C50 is false for a filter without conditions among several: the text is not an expression. -/
theorem C50_refuted_syntax : ∃ f g ts, FAccepted f ∧ FAccepted g ∧ Pcap.render false [f, g] = .ok ts ∧ parse ts = none ∧
    ts ≠ [] :=
  ⟨⟨["inet"], [bpfAll "accept"]⟩, ⟨["inet"], [bpfAccept "udp"]⟩, _, by decide +kernel, by decide +kernel, rfl,
    by decide +kernel, by decide +kernel⟩

/-! ### concrete cases of the theorems -/

/-- Requests to a network. -/
def bpfTerm : Term :=
  { name := "web".toList, action := ["accept"], protocol := ["tcp"],
    destinationAddress := [ip4 11 0 0 0 8, { ver := .v6, addr := 2 ^ 125, plen := 16 }], destinationPort := [(80, 81), (3000, 3000)],
    option := ["syn"] }

/-- Less one service. -/
def bpfLess : Term := { name := "less".toList, action := ["deny"], protocol := ["tcp", "udp"], destinationPort := [(81, 81)] }

theorem bpfTerm_fits : PFits "inet" bpfTerm := by
  constructor <;> first | decide +kernel | exact .inl rfl | (constructor <;> decide)
theorem bpfLess_fits : PFits "inet" bpfLess := by
  constructor <;> first | decide +kernel | exact .inl rfl | (constructor <;> decide)
theorem bpfRest_fits : PFits "inet" (bpfAll "deny").term := by
  constructor <;> first | decide +kernel | exact .inl rfl | (constructor <;> decide)

theorem bpfSyn : Sound (bpfPacket .v4 "tcp" ["syn"]) := bpfPacket_sound (by decide) (by decide) (by decide) (by decide)

/-- C49 on a concrete term: the packet is captured. -/
example : captures "inet" bpfTerm (bpfPacket .v4 "tcp" ["syn"]) = some true ∧ Matches bpfTerm (bpfPacket .v4 "tcp" ["syn"]) ∧
    OfFamily "inet" (bpfPacket .v4 "tcp" ["syn"]) := by decide +kernel

example : ∃ r, Pcap.renderTerm "inet" "in" bpfTerm = .ok r ∧
    ((∃ ts, r = some ts ∧ (Selects noHost ts (bpfPacket .v4 "tcp" ["syn"]) ↔ Matches bpfTerm (bpfPacket .v4 "tcp" ["syn"]) ∧
      (ts ≠ [] → Towards "in" noHost (bpfPacket .v4 "tcp" ["syn"])))) ∨
    (r = none ∧ ¬ Matches bpfTerm (bpfPacket .v4 "tcp" ["syn"]))) :=
  ⟨_, rfl, C49_partial (by decide) bpfTerm_fits rfl bpfSyn (by decide) noHost⟩

/-- A filter with a denying term, an accepting one, an expired one and the rest. -/
def bpfFilter : Filter :=
  ⟨["inet"], [{ term := bpfLess }, { term := { bpfTerm with name := "old".toList }, expired := true }, { term := bpfTerm },
    bpfAll "deny"]⟩

theorem bpfFilter_simple {p : Packet} (hf : OfFamily "inet" p) : Simple false bpfFilter p { term := bpfTerm } := by
  refine ⟨by decide, "inet", [{ term := bpfLess }], [bpfAll "deny"], .inl (by decide), ?_, ?_, hf⟩
  · refine ⟨rfl, by decide, ⟨"accept", rfl, by decide⟩, ?_, ?_, .inr (fun h => ?_), .inr ⟨ip4 11 0 0 0 8, .head _, ?_⟩⟩
    · intro d hd
      rw [List.mem_singleton.1 hd]
      exact ⟨⟨"deny", rfl, by decide⟩, fun h => by simp [Blank, bpfLess] at h⟩
    · intro d hd
      rw [List.mem_singleton.1 hd]
      exact ⟨⟨"deny", rfl, by decide⟩, rfl, rfl, rfl, rfl, rfl, rfl, rfl, rfl, rfl⟩
    · simp [Blank, bpfTerm] at h
    · exact ⟨fun _ => rfl, fun h => absurd h (by decide)⟩
  · intro r hr hc
    simp only [bpfFilter, List.mem_cons, List.not_mem_nil, or_false] at hr
    rcases hr with rfl | rfl | rfl | rfl
    · exact bpfLess_fits
    · exact absurd hc.1 (by decide)
    · exact bpfTerm_fits
    · exact bpfRest_fits

/-- C50 on the filter, with a packet that is captured and one that is not. -/
example : (∃ ts, Pcap.render false [bpfFilter] = .ok ts ∧ ∀ p, Sound p → OfFamily "inet" p → ∀ loc,
      (Selects loc ts p ↔ Decides ["accept"] bpfFilter.terms p)) ∧
    takes false [bpfFilter] (bpfPacket .v4 "tcp" ["syn"]) = some true ∧
    takes false [bpfFilter] { bpfPacket .v4 "tcp" ["syn"] with dport := 81 } = some false :=
  ⟨⟨_, rfl, fun _ hs hf loc => C50_partial (invert := false) rfl (bpfFilter_simple hf) hs loc⟩,
    by decide +kernel, by decide +kernel⟩

/-- An inverted filter: what is denied before the rest is accepted. -/
def bpfInverse : Filter := ⟨["inet"], [{ term := bpfLess }, bpfAll "accept"]⟩

theorem bpfInverse_simple {p : Packet} (hf : OfFamily "inet" p) : Simple true bpfInverse p { term := bpfLess } := by
  refine ⟨by decide, "inet", [], [bpfAll "accept"], .inl (by decide), ?_, ?_, hf⟩
  · refine ⟨rfl, by decide, ⟨"deny", rfl, by decide⟩, by simp, ?_, .inl rfl, .inl rfl⟩
    intro d hd
    rw [List.mem_singleton.1 hd]
    exact ⟨⟨"accept", rfl, by decide⟩, rfl, rfl, rfl, rfl, rfl, rfl, rfl, rfl, rfl⟩
  · intro r hr _
    simp only [bpfInverse, List.mem_cons, List.not_mem_nil, or_false] at hr
    rcases hr with rfl | rfl
    · exact bpfLess_fits
    · constructor <;> first | decide +kernel | exact .inl rfl | (constructor <;> decide)

example : ∃ ts, Pcap.render true [bpfInverse] = .ok ts ∧ ∀ p, Sound p → OfFamily "inet" p → ∀ loc,
    (Selects loc ts p ↔ Decides ["deny", "reject"] bpfInverse.terms p) :=
  ⟨_, rfl, fun _ hs hf loc => C50_partial (invert := true) rfl (bpfInverse_simple hf) hs loc⟩

/-- C50 on two filters. -/
example : ∃ ts, Pcap.render true [bpfInverse, bpfInverse] = .ok ts ∧ ∀ p, Sound p → OfFamily "inet" p → ∀ loc,
    (Selects loc ts p ↔ ∃ f ∈ [bpfInverse, bpfInverse], Decides ["deny", "reject"] f.terms p) := by
  refine ⟨_, rfl, fun p hs hf loc => C50_filters_partial (invert := true) (by simp) rfl ?_ hs loc⟩
  intro f h
  have : f = bpfInverse := by simpa using h
  rw [this]
  exact ⟨_, bpfInverse_simple hf, fun h => by simp [Blank, bpfLess] at h⟩

end Verif.Props
