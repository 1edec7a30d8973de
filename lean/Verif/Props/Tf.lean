import Verif.Lemmas.Tf

/-!
Properties of the model of capirca/lib/gce_vpc_tf.py: C137.
-/

namespace Verif.Props
open Verif Policy Aclgenerator Nacaddr
open Verif.Spec (Matches AddrMatch OneOf PortMatch Den WF Coherent First Packet)
open Verif.Gce (GTerm Rule Ctx Filter families)
open Verif.Spec.Gce (Flow Hits OfFamily Header CatchAll)
open Verif.Spec.Tf (Live Beats Decides Wants PolicyDecides)

/-- The terms that are rendered faithfully in a filter of the family and direction. For what happens without the conditions
beyond the tool's own checks, see the refutations. -/
structure TfFits (af dir : String) (g : GTerm) : Prop extends GceShape af dir g where
  keywords : initCheck Tf.tables [(["gce_vpc_tf"], [kterm g.term])] = .ok ()
  priority : g.priority = none ∨ g.term.sourceAddress ≠ [] ∨ g.term.destinationAddress ≠ []

theorem tftables_ok : ∀ e ∈ Tf.tables.subTokens, e.1 ∈ Tf.tables.tokens := by decide

theorem tfSimple {af dir : String} {g : GTerm} (f : TfFits af dir g) (hl : Live g) (ho : g.term.option = [])
    (hsp : g.term.sourcePort = []) : GceSimple g.term := by
  have hact : Spec.Active "gce_vpc_tf" (kterm g.term) := ⟨hl.2.2.1, hl.2.2.2⟩
  have un := fun (s : String) {v : Val} => unset (g := Tf.tables) tftables_ok rfl hact f.keywords s (v := v)
  have b : Basic g.term := basic_of (g := Tf.tables) tftables_ok rfl (by decide) hact f.keywords
  have b' : Basic (untag g.term) := ⟨b.1, b.2, b.3, b.4, b.5, b.6, b.7, b.8, b.9, b.10, b.11, b.12, b.13, b.14, b.15, b.16,
    b.17, b.18, b.19, b.20, b.21, b.22, b.23, b.24⟩
  have h5 : (untag g.term).protocolExcept = [] :=
    Cisco.wordsVal_falsy (un "protocol_except" (by simp [attrsOf, untag]) (by decide))
  have h8 : (untag g.term).icmpType = [] :=
    Cisco.wordsVal_falsy (un "icmp_type" (by simp [attrsOf, untag]) (by decide))
  have h9 : (untag g.term).icmpCode = [] :=
    Cisco.listVal_falsy (un "icmp_code" (by simp [attrsOf, untag]) (by decide))
  have h10 : (untag g.term).option = [] := ho
  have h11 : (untag g.term).sourcePort = [] := hsp
  refine ⟨Cisco.listVal_falsy (un "verbatim" (by simp [attrsOf]) (by decide)), fun p => ?_⟩
  rw [matches_untag, matches_basic b' ⟨rfl, rfl, f.ttl, f.trafficClass⟩ (.inl f.family)]
  unfold Spec.MatchProto
  rw [h5, h8, h9, h10, h11]
  constructor
  · rintro ⟨⟨a, c, d, _, _⟩, e⟩
    exact ⟨a, c.1, d.2, e⟩
  · rintro ⟨a, c, d, e⟩
    exact ⟨⟨a, ⟨c, by simp⟩, ⟨.inl rfl, d⟩, ⟨.inl rfl, .inl rfl⟩, by simp⟩, e⟩

theorem families_cons (af : String) : ∃ v vs, families af = v :: vs := by
  unfold families
  split
  · exact ⟨_, _, rfl⟩
  · split <;> exact ⟨_, _, rfl⟩

theorem mem_families {af : String} (haf : af = "inet" ∨ af = "inet6" ∨ af = "mixed") {fl : Flow} :
    fl.packet.ver ∈ families af ↔ OfFamily af fl := by
  unfold OfFamily
  rcases haf with rfl | rfl | rfl
  · simp [families]
  · simp [families]
  · simp [families]
    cases fl.packet.ver <;> simp

/-- A pass over a term makes rules for packets of its version only, except for terms with source tags only. -/
theorem pass_version {af : String} {c : Ctx} {v : Ver} {g : GTerm} {t' : Term} {name desc : Str} {ps : List Proto} {rs : List Rule}
    {fl : Flow} (f : GceShape af c.direction g) (hr : Gce.refused c.direction g.term = false)
    (hf : Flattened c.direction g.term t') (h : Gce.convert c v g t' name desc ps = .ok rs)
    (hdir : c.direction = "INGRESS" ∨ c.direction = "EGRESS") (htag : c.direction = "INGRESS" → g.term.sourceTag = [])
    (hh : ∃ r ∈ rs, Hits r fl) : fl.packet.ver = v := by
  obtain ⟨r1, r2, _⟩ := refused_false hr
  have hdd : c.direction = fl.direction := by
    obtain ⟨r, hr, hh⟩ := hh
    obtain ⟨action, nm, s, d, _, rfl, _⟩ := Gce.convert_mem h hr
    exact hh.1.2
  rcases hdir with hI | hE
  · obtain ⟨_, i2⟩ := f.ingress hI
    have hsa : g.term.sourceAddress ≠ [] := i2.elim (·.1) (fun h => absurd (htag hI) h.2.1)
    rw [Gce.convert_source h (hdd ▸ hI) (hf.left hI hsa) (hf.dst.nil (r1 hI).2) (hf.same.1.trans (htag hI)) f.accounts
      hf.src.wf] at hh
    obtain ⟨_, n, hn, hm⟩ := hh
    exact hm.1.symm.trans (Gce.mem_addresses.1 hn).2.1
  · obtain ⟨e1, e2, _⟩ := r2 hE
    rw [Gce.convert_destination h (by rw [← hdd, hE]; decide) (hf.right hE e2) (hf.src.nil e1) hf.dst.wf] at hh
    obtain ⟨_, n, hn, hm⟩ := hh
    exact hm.1.symm.trans (Gce.mem_addresses.1 hn).2.1

theorem flattened_tags {dir : String} {t t' : Term} (f : Flattened dir t t') (h : "" ∉ t.sourceTag ++ t.destinationTag) :
    "" ∉ t'.sourceTag ++ t'.destinationTag := by
  rw [f.same.1, f.same.2.1]
  exact h

/-- The rules of a term match what the term matches. -/
theorem tf_hits {af : String} {c : Ctx} {limit : Nat} {header : List Str} {n k : Nat} {g : GTerm} {name : Str} {o : Tf.Out}
    {fl : Flow} (f : TfFits af c.direction g) (hl : Live g) (h : Tf.oneTerm c limit (families af) header n k g name = .ok o)
    (hdir : c.direction = "INGRESS" ∨ c.direction = "EGRESS") (haf : af = "inet" ∨ af = "inet6" ∨ af = "mixed")
    (hm : c.mixed = (af == "mixed")) (hc : Coherent fl.packet)
    (hof : OfFamily af fl ∨ (c.direction = "INGRESS" → g.term.sourceTag = [])) :
    (∃ r ∈ o.rules, Hits r fl) ↔ (c.network = fl.network ∧ c.direction = fl.direction) ∧ OfFamily af fl ∧
      Matches g.term fl.packet ∧ OneOf g.dstAccounts fl.account := by
  obtain ⟨ho, comment, o', h1, e, _⟩ := Tf.oneTerm_live h hl
  rw [← e]
  by_cases hmx : af = "mixed"
  · have hof : OfFamily af fl := (mem_families haf).1 (by rw [hmx]; cases fl.packet.ver <;> decide)
    obtain ⟨v0, hv0, hsel⟩ := sel_families (g := g) haf hm hof
    have hex : g.term.sourceAddressExclude = [] ∧ g.term.destinationAddressExclude = [] :=
      ⟨f.srcSide.elim (·.1) (fun h => absurd hmx h.2.1), f.dstSide.elim (·.1) (fun h => absurd hmx h.2.1)⟩
    have efam : families af = [.v4, .v6] := by rw [hmx]; rfl
    rw [efam] at h1 hv0
    obtain ⟨q, _, rs, m, o1, g1, g2, _, g3, g4, _⟩ := Tf.famLoop_cons h1
    obtain ⟨q', _, rs', m', o2, k1, k2, _, k3, k4, _⟩ := Tf.famLoop_cons g3
    cases k3
    obtain ⟨p1, p2, p3⟩ := Tf.newTerm_ok g1
    have F := flatten_spec f.src f.dst f.srcSide f.dstSide p3
    have eq := F.plain hex.1 hex.2
    obtain ⟨p1', p2', p3'⟩ := Tf.newTerm_ok k1
    rw [eq] at p2' p3'
    have F' := flatten_spec f.src f.dst f.srcSide f.dstSide p3'
    have eps : q'.2 = (g.term.protocol.map Proto.str).map Verif.Gce.protoNumber := by
      rw [p1', p1, List.map_map]
      refine List.map_congr_left fun x _ => Gce.protoNumber_idem x
    have hsimple := tfSimple f hl ho (refused_false (Tf.refused_gce p2)).2.2.2
    obtain ⟨rs1, c1, s1⟩ := Tf.convert_gce (desc' := []) (g' := g) g2 (flattened_tags F f.tags) rfl rfl
    obtain ⟨rs2, c2, s2⟩ := Tf.convert_gce (desc' := []) (g' := g) k2 (flattened_tags F' f.tags) rfl rfl
    have a1 := pass_iff f.toGceShape hsimple (Tf.refused_gce p2) F p1 c1 hdir haf (by rw [efam]; simp) hm hc hof
    have a2 := pass_iff f.toGceShape hsimple (Tf.refused_gce p2') F' eps c2 hdir haf (by rw [efam]; simp) hm hc hof
    rw [← Tf.strip_hits s1] at a1
    rw [← Tf.strip_hits s2] at a2
    rw [g4, k4]
    simp only [List.append_nil, List.mem_append, or_and_right, exists_or, a1, a2, hof, true_and]
    constructor
    · rintro (h | h) <;> exact h.2
    · intro h
      rcases List.mem_cons.1 hv0 with rfl | hv0
      · exact .inl ⟨hsel, h⟩
      · rw [List.mem_singleton.1 hv0] at hsel
        exact .inr ⟨hsel, h⟩
  · have efam : ∃ v0, families af = [v0] := by
      unfold families
      rw [if_neg hmx]
      split
      · exact ⟨_, rfl⟩
      · exact ⟨_, rfl⟩
    obtain ⟨v0, efam⟩ := efam
    rw [efam] at h1
    obtain ⟨q, _, rs, m, o1, g1, g2, _, g3, g4, _⟩ := Tf.famLoop_cons h1
    cases g3
    obtain ⟨p1, p2, p3⟩ := Tf.newTerm_ok g1
    have F := flatten_spec f.src f.dst f.srcSide f.dstSide p3
    obtain ⟨rs1, c1, s1⟩ := Tf.convert_gce (desc' := []) (g' := g) g2 (flattened_tags F f.tags) rfl rfl
    rw [g4, List.append_nil, Tf.strip_hits s1]
    by_cases hof' : OfFamily af fl
    · have hsimple := tfSimple f hl ho (refused_false (Tf.refused_gce p2)).2.2.2
      obtain ⟨v1, hv1, hsel⟩ := sel_families (g := g) haf hm hof'
      have : v1 = v0 := by rw [efam] at hv1; exact List.mem_singleton.1 hv1
      subst this
      rw [pass_iff f.toGceShape hsimple (Tf.refused_gce p2) F p1 c1 hdir haf hv1 hm hc hof']
      simp only [hsel, hof', true_and]
    · refine iff_of_false (fun hh => hof' ?_) (fun h => hof' h.2.1)
      have := pass_version f.toGceShape (Tf.refused_gce p2) F c1 hdir (hof.resolve_left hof') hh
      rw [← mem_families haf, efam, this]
      simp

/-- The rules of a term in the default form of a term that denies everything match everything of the family. -/
theorem tf_catchAll {af : String} {c : Ctx} {limit : Nat} {header : List Str} {n k : Nat} {g : GTerm} {name : Str} {o : Tf.Out}
    {fl : Flow} (hg : CatchAll g) (hl : Live (Tf.asDefault c.direction af g))
    (h : Tf.oneTerm c limit (families af) header n k (Tf.asDefault c.direction af g) name = .ok o)
    (hdir : c.direction = "INGRESS" ∨ c.direction = "EGRESS") (haf : af = "inet" ∨ af = "inet6" ∨ af = "mixed")
    (hc : Coherent fl.packet) :
    (∃ r ∈ o.rules, Hits r fl) ↔ (c.network = fl.network ∧ c.direction = fl.direction) ∧ OfFamily af fl := by
  obtain ⟨_, comment, o', h1, e, _⟩ := Tf.oneTerm_live h hl
  rw [← e]
  have et : (Tf.asDefault c.direction af g).term = (Gce.asDefault c.direction af g).term := rfl
  have hx : (Gce.asDefault c.direction af g).term.sourceAddressExclude = [] ∧
      (Gce.asDefault c.direction af g).term.destinationAddressExclude = [] ∧ (Gce.asDefault c.direction af g).term.protocol = ["all"] ∧
      (Gce.asDefault c.direction af g).term.sourceTag ++ (Gce.asDefault c.direction af g).term.destinationTag = [] := by
    unfold Gce.asDefault
    rw [hg.1]
    split <;> exact ⟨rfl, rfl, rfl, rfl⟩
  have hflat : ∀ t', Gce.flatten c.direction (Gce.asDefault c.direction af g).term = .ok t' →
      t' = (Gce.asDefault c.direction af g).term := by
    intro t' h
    unfold Gce.flatten Gce.excludes at h
    rw [hx.1, hx.2.1] at h
    exact (Except.ok.inj h).symm
  rw [et, hx.2.2.1] at h1
  have eall : ([Proto.str "all"] : List Proto).map Verif.Gce.protoNumber = [.str "all"] := by decide
  have pass : ∀ {v : Ver} {desc : Str} {k : Nat} {ps : List Proto} {rs : List Rule}, v ∈ families af → ps = [.str "all"] →
      Tf.convert c v (Tf.asDefault c.direction af g) (Gce.asDefault c.direction af g).term name desc k ps = .ok rs →
      ((∃ r ∈ rs, Hits r fl) ↔ fl.packet.ver = v ∧ c.network = fl.network ∧ c.direction = fl.direction) := by
    intro v desc k ps rs hv hps hcv
    obtain ⟨rs1, c1, s1⟩ := Tf.convert_gce (desc' := []) (g' := Gce.asDefault c.direction af g) hcv (by rw [hx.2.2.2]; simp) rfl rfl
    rw [Tf.strip_hits s1]
    exact catchAll_pass hg hps c1 hdir hv hc
  rw [← mem_families haf]
  have one : ∀ v, families af = [v] → ((∃ r ∈ o'.rules, Hits r fl) ↔ (c.network = fl.network ∧ c.direction = fl.direction) ∧
      fl.packet.ver ∈ families af) := by
    intro v efam
    rw [efam] at h1
    obtain ⟨q, _, rs, m, o1, g1, g2, _, g3, g4, _⟩ := Tf.famLoop_cons h1
    cases g3
    obtain ⟨p1, p2, p3⟩ := Tf.newTerm_ok g1
    rw [hflat _ p3] at g2
    rw [g4, List.append_nil, pass (by rw [efam]; simp) (p1.trans eall) g2, efam]
    simp [and_comm]
  rcases haf with rfl | rfl | rfl
  · exact one .v4 rfl
  · exact one .v6 rfl
  · obtain ⟨q, _, rs, m, o1, g1, g2, _, g3, g4, _⟩ := Tf.famLoop_cons h1
    obtain ⟨q', _, rs', m', o2, k1, k2, _, k3, k4, _⟩ := Tf.famLoop_cons g3
    cases k3
    obtain ⟨p1, p2, p3⟩ := Tf.newTerm_ok g1
    obtain ⟨p1', p2', p3'⟩ := Tf.newTerm_ok k1
    rw [hflat _ p3] at g2 p3'
    rw [hflat _ p3'] at k2
    have p1 := p1.trans eall
    rw [p1] at p1'
    have a1 := pass (by decide) p1 g2
    have a2 := pass (by decide) (p1'.trans eall) k2
    rw [g4, k4]
    simp only [List.append_nil, List.mem_append, or_and_right, exists_or, a1, a2]
    cases fl.packet.ver <;> simp [families]

/-- The default form is refused nowhere but in the last place. -/
theorem tf_refused {c : Ctx} {limit : Nat} {af : String} {header : List Str} {n k : Nat} {g : GTerm} {name : Str} {o : Tf.Out}
    (hg : CatchAll g) (hdir : c.direction = "INGRESS" ∨ c.direction = "EGRESS") (hl : Live g)
    (h : Tf.oneTerm c limit (families af) header n k g name = .ok o) : False := by
  obtain ⟨_, comment, o', h1, _⟩ := Tf.oneTerm_live h hl
  obtain ⟨v, vs, e⟩ := families_cons af
  rw [e] at h1
  obtain ⟨q, _, _, _, _, g1, _⟩ := Tf.famLoop_cons h1
  obtain ⟨r1, r2, _⟩ := refused_false (Tf.refused_gce (Tf.newTerm_ok g1).2.1)
  rw [hg.1] at r1 r2
  rcases hdir with hd | hd
  · exact (r1 hd).1.elim (fun h => h rfl) (fun h => h rfl)
  · exact (r2 hd).2.1 rfl

/-! ### actions and priorities -/

theorem tf_action {t : Term} {a w : String} (ha : t.action = [w]) (h : Tf.actionOf t = .ok a) :
    (w = "accept" ∧ a = "allow") ∨ (w = "deny" ∧ a = "deny") := by
  unfold Tf.actionOf at h
  rw [ha] at h
  dsimp only at h
  split at h
  next s hs =>
    cases h
    have : (w, a) ∈ Tf.actionMap := Cisco.mem_of_lookup' hs
    simpa [Tf.actionMap] using this
  · cases h

theorem flatten_action {dir : String} {t t' : Term} (hf : Gce.flatten dir t = .ok t') : t'.action = t.action := by
  unfold Gce.flatten at hf
  split at hf
  · obtain ⟨u, h4, h5⟩ := bind_ok hf
    obtain ⟨_, _, _, _, _, _, rfl, _⟩ := flattenAll_shape h4
    unfold Gce.checkLeft at h5
    split at h5
    · cases h5
    · rw [← Except.ok.inj h5]
  · rw [← Except.ok.inj hf]

/-- The rules of one term are those of its passes. -/
theorem tf_fam {c : Ctx} {limit : Nat} {g : GTerm} {name : Str} : ∀ {vs : List Ver} {t : Term} {ps : List Proto}
    {comment : List Str} {n k : Nat} {o : Tf.Out}, Tf.famLoop c limit g name vs t ps comment n k = .ok o → ∀ r ∈ o.rules,
    ∃ v t' desc k ps' rs, t'.action = t.action ∧ Tf.convert c v g t' name desc k ps' = .ok rs ∧ r ∈ rs
  | [], t, ps, comment, n, k, o, h, r, hr => by cases h; cases hr
  | v :: vs, t, ps, comment, n, k, o, h, r, hr => by
    obtain ⟨q, desc, rs, m, o', h1, h2, _, h3, h4, _⟩ := Tf.famLoop_cons h
    have ha := flatten_action (Tf.newTerm_ok h1).2.2
    rw [h4] at hr
    rcases List.mem_append.1 hr with hr | hr
    · exact ⟨v, q.1, desc, k, q.2, rs, ha, h2, hr⟩
    · obtain ⟨w, t', d', k', ps', rs', h6, h7, h8⟩ := tf_fam h3 r hr
      exact ⟨w, t', d', k', ps', rs', h6.trans ha, h7, h8⟩

/-- What the rules of a term have in common. -/
theorem tf_mem {c : Ctx} {limit : Nat} {vs : List Ver} {header : List Str} {n k : Nat} {g : GTerm} {name : Str} {o : Tf.Out}
    (hl : Live g) (h : Tf.oneTerm c limit vs header n k g name = .ok o) {r : Rule} (hr : r ∈ o.rules) :
    Tf.actionOf g.term = .ok r.action ∧ r.network.getD "" = c.network ∧ r.direction = c.direction := by
  obtain ⟨_, comment, o', h1, e, _⟩ := Tf.oneTerm_live h hl
  rw [← e] at hr
  obtain ⟨v, t', desc, k', ps', rs, h6, h7, h8⟩ := tf_fam h1 r hr
  obtain ⟨action, nm, s, d, pr, ha, rfl, _⟩ := Tf.convert_mem h7 h8
  refine ⟨?_, Gce.network_getD _, rfl⟩
  unfold Tf.actionOf at ha ⊢
  rw [h6] at ha
  exact ha

/-- The rules of a term have the priorities from `k` on. -/
theorem tf_seq {c : Ctx} {limit : Nat} {g : GTerm} {name : Str} : ∀ {vs : List Ver} {t : Term} {ps : List Proto}
    {comment : List Str} {n k : Nat} {o : Tf.Out}, Tf.famLoop c limit g name vs t ps comment n k = .ok o →
    (∀ t' q ps, Gce.flatten c.direction t' = .ok q → Tf.newTerm c.direction t' ps = .ok (q, ps.map Gce.protoNumber) →
      (g.priority = none ∨ t'.sourceAddress ≠ [] ∨ t'.destinationAddress ≠ []) →
      (g.priority = none ∨ q.sourceAddress ≠ [] ∨ q.destinationAddress ≠ [])) →
    (g.priority = none ∨ t.sourceAddress ≠ [] ∨ t.destinationAddress ≠ []) →
    Tf.Seq k o.rules ∧ o.prio = k + o.rules.length
  | [], t, ps, comment, n, k, o, h, _, _ => by cases h; exact ⟨rfl, rfl⟩
  | v :: vs, t, ps, comment, n, k, o, h, hk, hp => by
    obtain ⟨q, desc, rs, m, o', h1, h2, _, h3, h4, h5, _⟩ := Tf.famLoop_cons h
    obtain ⟨e1, _, e3⟩ := Tf.newTerm_ok h1
    have hq := hk t q.1 ps e3 (by rw [← e1]; exact h1) hp
    have s1 := Tf.convert_seq h2 hq
    obtain ⟨s2, s3⟩ := tf_seq h3 hk hq
    rw [h4, h5, s3]
    exact ⟨Tf.seq_append s1 s2, by rw [List.length_append]; omega⟩

/-- Flattening does not take away all addresses. -/
theorem tf_keeps {dir : String} (hdir : dir = "INGRESS" ∨ dir = "EGRESS") {t q : Term} {ps ps' : List Proto}
    (h : Tf.newTerm dir t ps = .ok (q, ps')) (hp : t.sourceAddress ≠ [] ∨ t.destinationAddress ≠ []) :
    q.sourceAddress ≠ [] ∨ q.destinationAddress ≠ [] := by
  obtain ⟨_, _, hf⟩ := Tf.newTerm_ok h
  dsimp only at hf
  unfold Gce.flatten at hf
  split at hf
  · obtain ⟨u, _, h5⟩ := bind_ok hf
    unfold Gce.checkLeft at h5
    split at h5
    · cases h5
    next hn =>
      rw [← Except.ok.inj h5]
      simp only [Bool.or_eq_true, Bool.and_eq_true, List.isEmpty_iff, beq_iff_eq, not_or, not_and] at hn
      rcases hdir with hd | hd
      · exact .inl fun h => hn.1 h hd
      · exact .inr fun h => hn.2 h hd
  · rw [← Except.ok.inj hf]
    exact hp

theorem tf_term_seq {c : Ctx} {limit : Nat} {vs : List Ver} {header : List Str} {n k : Nat} {g : GTerm} {name : Str} {o : Tf.Out}
    (h : Tf.oneTerm c limit vs header n k g name = .ok o) (hr : g.reply = false)
    (hdir : c.direction = "INGRESS" ∨ c.direction = "EGRESS")
    (hp : Live g → g.priority = none ∨ g.term.sourceAddress ≠ [] ∨ g.term.destinationAddress ≠ []) :
    Tf.Seq k o.rules ∧ o.prio = k + o.rules.length := by
  by_cases hl : Live g
  · obtain ⟨_, comment, o', h1, e, e', _⟩ := Tf.oneTerm_live h hl
    rw [← e, ← e']
    exact tf_seq h1 (fun t' q ps _ h2 h3 => h3.imp id (tf_keeps hdir h2)) (hp hl)
  · obtain ⟨h1, h2, _⟩ := Tf.oneTerm_dead h hr hl
    rw [h1, h2]
    exact ⟨rfl, rfl⟩

/-! ### a filter -/

theorem tf_prepare {dir af : String} : ∀ {gs : List GTerm} {bs : List (GTerm × List Rule)}, bs.map Prod.fst = Tf.prepare dir af gs →
    ∃ bs' : List (GTerm × List Rule), bs'.flatMap Prod.snd = bs.flatMap Prod.snd ∧ bs'.map Prod.fst = gs ∧
      ∀ b' ∈ bs', ∃ b ∈ bs, b.2 = b'.2 ∧ (b.1 = b'.1 ∨ (Gce.isDefaultDeny b'.1 = true ∧ b.1 = Tf.asDefault dir af b'.1))
  | [], bs, h => by
    have : bs = [] := by simpa [Tf.prepare] using h
    subst this
    exact ⟨[], rfl, rfl, by simp⟩
  | [g], bs, h => by
    rw [Tf.prepare] at h
    obtain ⟨b, bs1, rfl, h1, h2⟩ := List.map_eq_cons_iff.1 h
    have : bs1 = [] := by simpa using h2
    subst this
    refine ⟨[(g, b.2)], rfl, rfl, ?_⟩
    intro b' hb'
    rw [List.mem_singleton.1 hb']
    refine ⟨b, by simp, rfl, ?_⟩
    by_cases hd : Gce.isDefaultDeny g = true
    · rw [if_pos hd] at h1
      exact .inr ⟨hd, h1⟩
    · rw [if_neg hd] at h1
      exact .inl h1
  | g :: h' :: gs, bs, h => by
    rw [Tf.prepare] at h
    obtain ⟨b, bs1, rfl, h1, h2⟩ := List.map_eq_cons_iff.1 h
    obtain ⟨bs2, k1, k2, k3⟩ := tf_prepare h2
    refine ⟨b :: bs2, by rw [List.flatMap_cons, List.flatMap_cons, k1], by rw [List.map_cons, k2, h1], fun b' hb' => ?_⟩
    rcases List.mem_cons.1 hb' with rfl | hb'
    · exact ⟨b', by simp, rfl, .inl rfl⟩
    · obtain ⟨b0, m0, x⟩ := k3 b' hb'
      exact ⟨b0, List.mem_cons_of_mem _ m0, x⟩

theorem mem_prepare {dir af : String} : ∀ {gs : List GTerm} {g : GTerm}, g ∈ Tf.prepare dir af gs →
    g ∈ gs ∨ ∃ g0 ∈ gs, Gce.isDefaultDeny g0 = true ∧ g = Tf.asDefault dir af g0
  | [], g, h => by cases h
  | [g0], g, h => by
    rw [Tf.prepare] at h
    rw [List.mem_singleton.1 h]
    by_cases hd : Gce.isDefaultDeny g0 = true
    · rw [if_pos hd]
      exact .inr ⟨g0, by simp, hd, rfl⟩
    · rw [if_neg hd]
      exact .inl (by simp)
  | g0 :: h' :: gs, g, h => by
    rw [Tf.prepare] at h
    rcases List.mem_cons.1 h with rfl | h
    · exact .inl (by simp)
    · rcases mem_prepare h with h | ⟨g1, h1, h2⟩
      · exact .inl (List.mem_cons_of_mem _ h)
      · exact .inr ⟨g1, List.mem_cons_of_mem _ h1, h2⟩

theorem tf_live {dir af : String} {g : GTerm} : Live (Tf.asDefault dir af g) ↔ Live g := by
  unfold Live Tf.asDefault
  split <;> exact Iff.rfl

/-- A rule that matches has this action. -/
def TfHits (fl : Flow) (r : Rule) (a : String) : Prop := Hits r fl ∧ r.action = a

theorem tf_wants_unique {fl : Flow} {x : Filter × GTerm} {a b : String} (h1 : Wants fl x a) (h2 : Wants fl x b) : a = b := by
  obtain ⟨_, _, _, h1⟩ := h1
  obtain ⟨_, _, _, h2⟩ := h2
  rcases h1 with ⟨h1, h3⟩ | ⟨h1, h3⟩ <;> rcases h2 with ⟨h2, h4⟩ | ⟨h2, h4⟩
  · rw [h3, h4]
  · rw [h1] at h2; exact absurd h2 (by decide)
  · rw [h1] at h2; exact absurd h2 (by decide)
  · rw [h3, h4]

/-- The rules of a filter are blocks, each of which wants what its term wants, and are numbered. -/
theorem tf_filter {af : String} {c : Ctx} {limit n k : Nat} {header : List Str} {f : Filter} {o : Tf.Out} {fl : Flow}
    (h : Tf.termsLoop c limit (families af) [] header n k (Tf.prepare c.direction af f.terms) = .ok o)
    (hhead : Header f.options c.direction af c.network)
    (huniq : ∀ d a n, Header f.options d a n → d = c.direction ∧ a = af ∧ n = c.network)
    (hfit : ∀ g ∈ f.terms, Live g → TfFits af c.direction g ∨ CatchAll g)
    (hdir : c.direction = "INGRESS" ∨ c.direction = "EGRESS") (haf : af = "inet" ∨ af = "inet6" ∨ af = "mixed")
    (hm : c.mixed = (af == "mixed")) (hc : Coherent fl.packet)
    (hof : c.direction = fl.direction → c.network = fl.network →
      OfFamily af fl ∨ ∀ g ∈ f.terms, Live g → c.direction = "INGRESS" → g.term.sourceTag = []) :
    (∃ bs : List ((Filter × GTerm) × List Rule), bs.flatMap Prod.snd = o.rules ∧ bs.map Prod.fst = f.terms.map (fun g => (f, g)) ∧
      ∀ b ∈ bs, ∀ w, (∃ r ∈ b.2, TfHits fl r w) ↔ Wants fl b.1 w) ∧
    Tf.Seq k o.rules ∧ o.prio = k + o.rules.length := by
  refine ⟨?_, Tf.termsLoop_seq h ?_⟩
  · obtain ⟨bs0, e1, e2, e3⟩ := Tf.termsLoop_blocks h
    obtain ⟨bs, k1, k2, k3⟩ := tf_prepare e2
    refine ⟨bs.map fun b => ((f, b.1), b.2), ?_, ?_, ?_⟩
    · rw [e1, ← k1, List.flatMap_map]
    · rw [← k2, List.map_map, List.map_map]
      rfl
    · intro b1 hb1
      obtain ⟨b, hb, rfl⟩ := List.mem_map.1 hb1
      dsimp only
      obtain ⟨b0, hb0, x1, x2⟩ := k3 b hb
      have hbg : b.1 ∈ f.terms := by rw [← k2]; exact List.mem_map.2 ⟨b, hb, rfl⟩
      have hlive : Live b0.1 ↔ Live b.1 := by
        rcases x2 with x2 | ⟨_, x2⟩
        · rw [x2]
        · rw [x2]; exact tf_live
      rw [← x1]
      rcases e3 b0 hb0 with ⟨y1, y2⟩ | ⟨y1, name, hdr, n', k', o', y2, y3, y4⟩
      · have : ¬ Live b.1 := fun hl => by
          have := (hlive.2 hl).2.1
          rw [y1] at this
          cases this
        rw [y2]
        exact fun w => iff_of_false (by simp) (fun h => this h.1)
      · by_cases hl : Live b.1
        case neg =>
          rw [← y4, (Tf.oneTerm_dead y3 y1 (fun h => hl (hlive.1 h))).1]
          exact fun w => iff_of_false (by simp) (fun h => hl h.1)
        have hact : b0.1.term.action = b.1.term.action := by
          rcases x2 with x2 | ⟨_, x2⟩
          · rw [x2]
          · rw [x2]
            unfold Tf.asDefault
            split <;> rfl
        have hone : ∃ w, b.1.term.action = [w] := by
          rcases hfit _ hbg hl with f | f
          · exact f.action
          · exact ⟨"deny", by rw [f.1]⟩
        obtain ⟨w0, hw0⟩ := hone
        have hmem : ∀ r ∈ b0.2, (b.1.term.action = ["accept"] ∧ r.action = "allow") ∨ (b.1.term.action = ["deny"] ∧ r.action = "deny") := by
          intro r hr
          rw [← y4] at hr
          obtain ⟨m1, _⟩ := tf_mem (hlive.2 hl) y3 hr
          rcases tf_action (hact.trans hw0) m1 with ⟨rfl, h⟩ | ⟨rfl, h⟩
          · exact .inl ⟨hw0, h⟩
          · exact .inr ⟨hw0, h⟩
        have hhits : (∃ r ∈ b0.2, Hits r fl) ↔ ((c.network = fl.network ∧ c.direction = fl.direction) ∧ OfFamily af fl) ∧
            Matches b.1.term fl.packet ∧ OneOf b.1.dstAccounts fl.account ∧ OneOf b.1.srcAccounts fl.peer := by
          by_cases hq : c.direction = fl.direction ∧ c.network = fl.network
          case neg =>
            refine iff_of_false ?_ (fun h => hq ⟨h.1.1.2, h.1.1.1⟩)
            rintro ⟨r, hr, hh⟩
            rw [← y4] at hr
            obtain ⟨_, m2, m3⟩ := tf_mem (hlive.2 hl) y3 hr
            exact hq ⟨m3.symm.trans hh.1.2, m2.symm.trans hh.1.1⟩
          rw [← y4]
          rcases hfit _ hbg hl with g | g
          · have hnd := fits_default hdir g.toGceShape
            rcases x2 with x2 | ⟨x2, _⟩
            · rw [x2] at y3
              rw [tf_hits g hl y3 hdir haf hm hc ((hof hq.1 hq.2).imp id (fun h => h _ hbg hl))]
              have : OneOf b.1.srcAccounts fl.peer := .inl g.accounts
              simp [this, and_assoc]
            · rw [hnd] at x2
              cases x2
          · rcases x2 with x2 | ⟨_, x2⟩
            · rw [x2] at y3
              exact (tf_refused g hdir hl y3).elim
            · rw [x2] at y3
              rw [tf_catchAll g (tf_live.2 hl) y3 hdir haf hc]
              exact ⟨fun h => ⟨h, catchAll_matches g _, .inl g.2.2.2.2.1, .inl g.2.2.2.1⟩, fun h => h.1⟩
        have hwho : (∃ af', Header f.options fl.direction af' fl.network ∧ OfFamily af' fl) ↔
            (c.network = fl.network ∧ c.direction = fl.direction) ∧ OfFamily af fl := by
          constructor
          · rintro ⟨af', h1, h2⟩
            obtain ⟨u1, u2, u3⟩ := huniq _ _ _ h1
            exact ⟨⟨u3.symm, u1.symm⟩, u2 ▸ h2⟩
          · rintro ⟨⟨h1, h2⟩, h3⟩
            exact ⟨af, by rw [← h1, ← h2]; exact hhead, h3⟩
        intro w
        unfold TfHits Wants
        rw [hwho]
        constructor
        · rintro ⟨r, hr, h1, rfl⟩
          obtain ⟨h2, h3⟩ := hhits.1 ⟨r, hr, h1⟩
          exact ⟨hl, h2, h3, hmem r hr⟩
        · rintro ⟨_, h0, h1, h2⟩
          obtain ⟨r, hr, h3⟩ := hhits.2 ⟨h0, h1⟩
          refine ⟨r, hr, h3, ?_⟩
          rcases hmem r hr with ⟨h4, h5⟩ | ⟨h4, h5⟩ <;> rcases h2 with ⟨h6, h7⟩ | ⟨h6, h7⟩
          · rw [h5, h7]
          · rw [h4] at h6; exact absurd h6 (by decide)
          · rw [h4] at h6; exact absurd h6 (by decide)
          · rw [h5, h7]
  · intro g hg header n k name o hr ho
    refine tf_term_seq ho hr hdir fun hl => ?_
    rcases mem_prepare hg with hg | ⟨g0, hg0, hd, rfl⟩
    · rcases hfit g hg hl with f | f
      · exact f.priority
      · exact .inl f.2.1
    · rcases hfit g0 hg0 (tf_live.1 hl) with f | f
      · rw [fits_default hdir f.toGceShape] at hd
        cases hd
      · exact .inl f.2.1

/-! ### the policy -/

theorem tf_header_unique {o : List String} {d a n d' a' n' : String} (h : Header o d a n) (h' : Header o d' a' n') :
    d' = d ∧ a' = a ∧ n' = n := by
  have e1 := head_header (limit := 0) (f := { options := o }) h (List.Perm.refl _)
  have e2 := head_header (limit := 0) (f := { options := o }) h' (List.Perm.refl _)
  exact ⟨e2.1.symm.trans e1.1, e2.2.1.symm.trans e1.2.1, e2.2.2.symm.trans e1.2.2⟩

theorem header_words {o : List String} {d a n : String} (h : Header o d a n) :
    (d = "INGRESS" ∨ d = "EGRESS") ∧ (a = "inet" ∨ a = "inet6" ∨ a = "mixed") := by
  refine ⟨?_, ?_⟩
  · rw [h.direction]
    split
    · exact .inr rfl
    · exact .inl rfl
  · rcases h.family with h | h | h
    · exact .inl h.1
    · exact .inr (.inl h.1)
    · exact .inr (.inr h.1)

theorem tf_policy {fl : Flow} (hc : Coherent fl.packet) : ∀ {fs : List Filter} {limit n k : Nat} {rs : List Rule},
    Tf.filtersLoop limit n k fs = .ok rs →
    (∀ f ∈ fs, f.order.Perm ["inet", "inet6", "mixed"]) →
    (∀ f ∈ fs, ∃ d a n, Header f.options d a n ∧ ∀ g ∈ f.terms, Live g → TfFits a d g ∨ CatchAll g) →
    (∀ f ∈ fs, ∀ af, Header f.options fl.direction af fl.network →
      OfFamily af fl ∨ ∀ g ∈ f.terms, Live g → fl.direction = "INGRESS" → g.term.sourceTag = []) →
    (∃ bs : List ((Filter × GTerm) × List Rule), bs.flatMap Prod.snd = rs ∧
      bs.map Prod.fst = (fs.flatMap fun f => f.terms.map fun g => (f, g)) ∧
      ∀ b ∈ bs, ∀ w, (∃ r ∈ b.2, TfHits fl r w) ↔ Wants fl b.1 w) ∧ Tf.Seq k rs
  | [], limit, n, k, rs, h, _, _, _ => by
    cases h
    exact ⟨⟨[], rfl, rfl, by simp⟩, rfl⟩
  | f :: fs, limit, n, k, rs, h, hperm, hfit, hfam => by
    rw [Tf.filtersLoop] at h
    split at h
    · cases h
    · split at h
      · cases h
      · obtain ⟨o, h1, h⟩ := bind_ok h
        obtain ⟨rs', h2, h⟩ := bind_ok h
        cases h
        obtain ⟨d, a, nw, hhead, hf⟩ := hfit f (by simp)
        obtain ⟨e1, e2, e3⟩ := head_header (limit := limit) hhead (hperm f (by simp))
        obtain ⟨hdir, haf⟩ := header_words hhead
        rw [e1, e2, e3] at h1
        obtain ⟨⟨bs, b1, b2, b3⟩, s1, s2⟩ := tf_filter (c := ⟨d, nw, a == "mixed"⟩) (fl := fl) h1 hhead
          (fun d' a' n' h' => tf_header_unique hhead h') hf hdir haf rfl hc
          (fun (x1 : d = fl.direction) (x2 : nw = fl.network) =>
            (hfam f (by simp) a (by rw [← x1, ← x2]; exact hhead)).imp id
              (fun h g hg hl (hi : d = "INGRESS") => h g hg hl (x1.symm.trans hi)))
        rw [s2] at h2
        obtain ⟨⟨bs', c1, c2, c3⟩, t1⟩ := tf_policy hc h2 (fun f' hf' => hperm f' (List.mem_cons_of_mem _ hf'))
          (fun f' hf' => hfit f' (List.mem_cons_of_mem _ hf')) (fun f' hf' => hfam f' (List.mem_cons_of_mem _ hf'))
        refine ⟨⟨bs ++ bs', by rw [List.flatMap_append, b1, c1], by rw [List.map_append, b2, c2, List.flatMap_cons], ?_⟩,
          Tf.seq_append s1 t1⟩
        intro b hb
        rcases List.mem_append.1 hb with hb | hb
        · exact b3 b hb
        · exact c3 b hb

theorem seq_pairwise : ∀ {rs : List Rule} {k : Nat}, Tf.Seq k rs →
    rs.Pairwise (fun r s => Spec.Gce.prio r < Spec.Gce.prio s) ∧ ∀ r ∈ rs, ∃ m, r.priority = some m ∧ k ≤ m ∧ m < k + rs.length
  | [], k, _ => ⟨.nil, by simp⟩
  | r :: rs, k, h => by
    unfold Tf.Seq at h
    rw [List.map_cons, List.length_cons, List.range'_succ, List.map_cons, List.cons.injEq] at h
    obtain ⟨h1, h2⟩ := seq_pairwise (k := k + 1) h.2
    refine ⟨List.pairwise_cons.2 ⟨fun s hs => ?_, h1⟩, fun s hs => ?_⟩
    · obtain ⟨m, h3, h4, _⟩ := h2 s hs
      unfold Spec.Gce.prio
      rw [h.1, h3]
      exact h4
    · rcases List.mem_cons.1 hs with rfl | hs
      · exact ⟨k, h.1, Nat.le_refl _, by rw [List.length_cons]; omega⟩
      · obtain ⟨m, h3, h4, h5⟩ := h2 s hs
        exact ⟨m, h3, by omega, by rw [List.length_cons]; omega⟩

/-- C137, for terms that are rendered faithfully. A filter for the network and direction of the flow but another family has no
terms with source tags. Not proved, and refuted below: the same without these conditions. -/
theorem C137_policy_partial {fs : List Filter} {rs : List Rule} {fl : Flow} {a : String} (h : Tf.translate fs = .ok rs)
    (hperm : ∀ f ∈ fs, f.order.Perm ["inet", "inet6", "mixed"])
    (hfit : ∀ f ∈ fs, ∃ d a n, Header f.options d a n ∧ ∀ g ∈ f.terms, Live g → TfFits a d g ∨ CatchAll g)
    (hfam : ∀ f ∈ fs, ∀ af, Header f.options fl.direction af fl.network →
      OfFamily af fl ∨ ∀ g ∈ f.terms, Live g → fl.direction = "INGRESS" → g.term.sourceTag = [])
    (hc : Coherent fl.packet) : Decides rs fl a ↔ PolicyDecides fs fl a := by
  obtain ⟨⟨bs, b1, b2, b3⟩, hseq⟩ := tf_policy hc h hperm hfit hfam
  have hdec : Decides rs fl a ↔ First (TfHits fl) rs a := by
    obtain ⟨hp, _⟩ := seq_pairwise hseq
    constructor
    · rintro ⟨r, hr, hh, ha, hb⟩
      obtain ⟨pre, post, rfl⟩ := List.append_of_mem hr
      refine ⟨pre, r, post, rfl, ⟨hh, ha⟩, fun m hm w hw => ?_⟩
      have h1 := (List.pairwise_append.1 hp).2.2 m hm r (by simp)
      rcases hb m (by simp [hm]) hw.1 with h | ⟨h, _⟩ <;> omega
    · rintro ⟨pre, x, post, rfl, ⟨hx, ha⟩, hn⟩
      have hxa : x.action = "allow" ∨ x.action = "deny" := by
        have : x ∈ bs.flatMap Prod.snd := by rw [b1]; simp
        obtain ⟨b, hb, hxb⟩ := List.mem_flatMap.1 this
        exact ((b3 b hb x.action).1 ⟨x, hxb, hx, rfl⟩).2.2.2.imp (·.2) (·.2)
      refine ⟨x, by simp, hx, ha, fun s hs hh => ?_⟩
      rcases List.mem_append.1 hs with h | h
      · exact absurd ⟨hh, rfl⟩ (hn s h _)
      · rcases List.mem_cons.1 h with rfl | h
        · exact .inr ⟨rfl, hxa.symm⟩
        · exact .inl ((List.pairwise_cons.1 (List.pairwise_append.1 hp).2.1).1 s h)
  rw [hdec, ← b1]
  unfold PolicyDecides
  rw [← b2]
  refine Lemmas.first_blocks ?_ b3
  intro x v w h1 h2
  exact tf_wants_unique h1 h2

end Verif.Props
