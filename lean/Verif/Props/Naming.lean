import Verif.Lemmas.NamingMore
import Verif.Props.Nacaddr

/-!
Property theorems C22-C26: capirca/lib/naming.py. The parser of address texts is a parameter `ip`
(the standard library's); all that is assumed of it is `DotOrColon` and, where sets of addresses
matter, that it returns well-formed networks.
-/

namespace Verif.Props
open Verif Verif.Spec Verif.Naming Verif.PyStr

/-! ### a definition set for the examples -/

/-- parser that knows four addresses -/
def exIp : Str → Option Net := fun s =>
  if s = "10.0.0.0/8".toList then some { ver := .v4, addr := 0x0a000000, plen := 8 }
  else if s = "192.168.1.0/24".toList then some { ver := .v4, addr := 0xc0a80100, plen := 24 }
  else if s = "2001:db8::/32".toList then some { ver := .v6, addr := 0x20010db8000000000000000000000000, plen := 32 }
  else if s = "fe80::/10".toList then some { ver := .v6, addr := 0xfe800000000000000000000000000000, plen := 10 }
  else none

theorem exIp_dotOrColon : DotOrColon exIp := by
  intro v a h
  unfold exIp at h
  split at h
  next hv => subst hv; decide
  next =>
    split at h
    next hv => subst hv; decide
    next =>
      split at h
      next hv => subst hv; decide
      next =>
        split at h
        next hv => subst hv; decide
        next => cases h

/-- three tokens, nested twice, one reference with a comment -/
def exNets : Defs :=
  [("A".toList, ["10.0.0.0/8 # ten".toList, "B".toList]),
   ("B".toList, ["C # see".toList, "2001:db8::/32".toList]),
   ("C".toList, ["192.168.1.0/24".toList])]

/-- depth of a token -/
def exRank (s : Str) : Nat := if s = "A".toList then 3 else if s = "B".toList then 2 else 1

theorem exNets_items : ItemsOk exNets := itemsOk_of (by decide)

theorem exNets_noLoop : NoLoop exNets (NetLeaf exIp) := noLoop_of exRank (by decide)

theorem exNets_defined {t : Str} (h : t ∈ keys exNets) : FullyDefined exNets (NetLeaf exIp) t :=
  fullyDefined_of (by decide) h

/-! ### C22 -/

/-- C22 (partial): a token that reaches only defined tokens and runs into no cycle resolves, without
error, to exactly the networks reachable from it. Missing: termination on cyclic definitions, which
is false (`C22_cycle_diverges`). -/
theorem C22_resolves_partial {nets : Defs} {ip : IpParser} (hi : ItemsOk nets) (hip : DotOrColon ip) {t : Str}
    (ht : Word t) (hc : NoCycle nets (NetLeaf ip) t) (hd : FullyDefined nets (NetLeaf ip) t) :
    ∃ l, getNet nets ip t = .ok l ∧ NetsExact nets ip t l := by
  obtain ⟨n, hn⟩ := getNet_terminates hi hip ht hc
  rw [getNet_fuel hn]
  cases h : getNetF nets ip n t with
  | ok l => exact ⟨l, rfl, ((getNetF_correct hi hip n t ht).1 l h).2⟩
  | error e =>
    rcases (getNetF_correct hi hip n t ht).2 e h with rfl | ⟨_, h2⟩
    · exact absurd h hn
    · exact absurd hd h2

/-- C22 (partial): if a reachable token is undefined (and no cycle is reachable), `GetNet` raises
`UndefinedAddressError`. Missing: cyclic definitions, as above. -/
theorem C22_undefined_partial {nets : Defs} {ip : IpParser} (hi : ItemsOk nets) (hip : DotOrColon ip) {t : Str}
    (ht : Word t) (hc : NoCycle nets (NetLeaf ip) t) (hd : ¬ FullyDefined nets (NetLeaf ip) t) :
    getNet nets ip t = .error (.raised "UndefinedAddressError") := by
  obtain ⟨n, hn⟩ := getNet_terminates hi hip ht hc
  rw [getNet_fuel hn]
  cases h : getNetF nets ip n t with
  | ok l => exact absurd ((getNetF_correct hi hip n t ht).1 l h).1 hd
  | error e =>
    rcases (getNetF_correct hi hip n t ht).2 e h with rfl | ⟨h1, _⟩
    · exact absurd h hn
    · rw [h1]

/-- C22: whatever the definitions, a list that `GetNet` returns (at any recursion depth) is exact,
and the token then has no cycle and no undefined token below it. -/
theorem C22_result_exact {nets : Defs} {ip : IpParser} (hi : ItemsOk nets) (hip : DotOrColon ip) {t : Str}
    (ht : Word t) {n : Nat} {l : List Net} (h : getNetF nets ip n t = .ok l) :
    NetsExact nets ip t l ∧ FullyDefined nets (NetLeaf ip) t ∧ NoCycle nets (NetLeaf ip) t :=
  ⟨((getNetF_correct hi hip n t ht).1 l h).2, ((getNetF_correct hi hip n t ht).1 l h).1,
    getNetF_noCycle hi n t ht l h⟩

/-- C22: the items of loaded definitions always have the form the theorems above ask for. -/
theorem C22_loaded {svcFiles netFiles : List (List Str)} {st : State} (h : load svcFiles netFiles = .ok st) :
    ItemsOk st.networks ∧ ItemsOk st.services ∧ (keys st.networks).Nodup ∧ (keys st.services).Nodup := by
  obtain ⟨s1, h1, _, h2, _⟩ := load_ok h
  have hi : AllItemsOk st := parseLines_items h2 (parseLines_items h1 (by
    intro ty e he; cases ty <;> cases he))
  have hn : KeysNodup st := parseLines_nodup h2 (parseLines_nodup h1 (by intro ty; cases ty <;> simp [State.defs]))
  exact ⟨hi .networks, hi .services, hn .networks, hn .services⟩

/-- C22: the depth bound of the model is no restriction: if any depth gives an outcome, that is the
outcome. -/
theorem C22_depth {nets : Defs} {ip : IpParser} {m : Nat} {q : Str}
    (h : getNetF nets ip m q ≠ .error .diverges) : getNet nets ip q = getNetF nets ip m q := getNet_fuel h

/-- C22 refuted: with all tokens defined, a cycle below the token makes `GetNet` recurse beyond every
depth. -/
theorem C22_cycle_diverges {nets : Defs} {ip : IpParser} (hi : ItemsOk nets) (hip : DotOrColon ip) {t : Str}
    (ht : Word t) (hc : ¬ NoCycle nets (NetLeaf ip) t) (hd : FullyDefined nets (NetLeaf ip) t) (n : Nat) :
    getNetF nets ip n t = .error .diverges := by
  cases h : getNetF nets ip n t with
  | ok l => exact absurd (getNetF_noCycle hi n t ht l h) hc
  | error e =>
    rcases (getNetF_correct hi hip n t ht).2 e h with rfl | ⟨_, h2⟩
    · rfl
    · exact absurd hd h2

example : Word "A".toList ∧ NoCycle exNets (NetLeaf exIp) "A".toList ∧
    FullyDefined exNets (NetLeaf exIp) "A".toList ∧
    (getNet exNets exIp "A".toList).map (·.map fun n => (n.plen, n.token, n.parent)) =
      .ok [(8, "A", "A"), (24, "C", "A"), (32, "B", "A")] :=
  ⟨by decide, noCycle_of_noLoop exNets_noLoop _, exNets_defined (by decide), by decide⟩

example : ¬ FullyDefined [("A".toList, ["B".toList])] (NetLeaf exIp) "A".toList := by
  intro h
  have := h "B".toList (.step .refl ⟨["B".toList], "B".toList, rfl, by decide, by decide⟩ (by decide))
  exact absurd this (by decide)

/-- A token can be defined by itself, which is a cycle. -/
theorem exLoop_cyclic (leaf : Str → Prop) (h : ¬ leaf "A".toList) :
    ¬ NoCycle [("A".toList, ["A".toList])] leaf "A".toList := by
  intro hacc
  have : ∀ t, NoCycle [("A".toList, ["A".toList])] leaf t → t ≠ "A".toList := by
    intro t ht
    induction ht with
    | intro t _ ih =>
      rintro rfl
      exact ih "A".toList ⟨⟨["A".toList], "A".toList, rfl, by decide, by decide⟩, h⟩ rfl
  exact this _ hacc rfl

example : ItemsOk [("A".toList, ["A".toList])] ∧
    ¬ NoCycle [("A".toList, ["A".toList])] (NetLeaf exIp) "A".toList ∧
    FullyDefined [("A".toList, ["A".toList])] (NetLeaf exIp) "A".toList :=
  ⟨itemsOk_of (by decide), exLoop_cyclic _ (by decide), fullyDefined_of (by decide) (by decide)⟩

/-- C22 refuted, from a definitions directory: it loads without error and `GetNet('A')` does not
return. -/
theorem C22_refuted : ∃ st, load [["HTTP = 80/tcp".toList]] [["A = A".toList]] = .ok st ∧
    ∀ n, getNetF st.networks exIp n "A".toList = .error .diverges := by
  refine ⟨_, rfl, fun n => ?_⟩
  exact C22_cycle_diverges (nets := [("A".toList, ["A".toList])]) (itemsOk_of (by decide)) exIp_dotOrColon
    (by decide) (exLoop_cyclic _ (by decide)) (fullyDefined_of (by decide) (by decide)) n

/-! ### C23 -/

/-- C23 (partial): a service token that reaches only defined tokens and runs into no cycle (other
than tokens naming themselves) resolves to exactly the port/protocol leaves reachable from it,
strictly ascending. Missing: termination on longer cycles, which is false (`C23_refuted`). -/
theorem C23_resolves_partial {svcs : Defs} (hi : ItemsOk svcs) {t : Str} (ht : Word t)
    (hc : NoCycle' svcs SvcLeaf t) (hd : FullyDefined svcs SvcLeaf t) :
    ∃ l, getService svcs t = .ok l ∧ l.Pairwise (fun a b => strLt a b = true) ∧
      ∀ v, v ∈ l ↔ SvcOf svcs t v := by
  obtain ⟨n, hn⟩ := getService_terminates hi ht hc
  rw [getService_fuel hn]
  cases h : getServiceF svcs n t with
  | ok l => exact ⟨l, rfl, ((getServiceF_correct hi n t ht).1 l h).2⟩
  | error e =>
    rcases (getServiceF_correct hi n t ht).2 e h with rfl | ⟨_, h2⟩
    · exact absurd h hn
    · exact absurd hd h2

/-- C23 (partial): an undefined reachable token raises `UndefinedServiceError`. -/
theorem C23_undefined_partial {svcs : Defs} (hi : ItemsOk svcs) {t : Str} (ht : Word t)
    (hc : NoCycle' svcs SvcLeaf t) (hd : ¬ FullyDefined svcs SvcLeaf t) :
    getService svcs t = .error (.raised "UndefinedServiceError") := by
  obtain ⟨n, hn⟩ := getService_terminates hi ht hc
  rw [getService_fuel hn]
  cases h : getServiceF svcs n t with
  | ok l => exact absurd ((getServiceF_correct hi n t ht).1 l h).1 hd
  | error e =>
    rcases (getServiceF_correct hi n t ht).2 e h with rfl | ⟨h1, _⟩
    · exact absurd h hn
    · rw [h1]

/-- C23 (partial): `GetServiceByProto` returns, strictly ascending, exactly the port texts of the
leaves with that protocol, upper and lower case being the same. -/
theorem C23_byProto_partial {svcs : Defs} (hi : ItemsOk svcs) {t : Str} (ht : Word t)
    (hc : NoCycle' svcs SvcLeaf t) (hd : FullyDefined svcs SvcLeaf t) (proto : Str) :
    ∃ l, getServiceByProto svcs t proto = .ok l ∧ l.Pairwise (fun a b => strLt a b = true) ∧
      ∀ p, p ∈ l ↔ ∃ v w, SvcOf svcs t v ∧ ProtoValue v p w ∧ w.map Char.toUpper = proto.map Char.toUpper := by
  obtain ⟨l, hl, _, hx⟩ := C23_resolves_partial hi ht hc hd
  unfold getServiceByProto
  rw [headTok_word ht]
  obtain ⟨items, hit⟩ := Option.isSome_iff_exists.1 (hd t .refl)
  simp only [hit, hl, bind, Except.bind]
  refine ⟨_, rfl, sortedSet_sorted _, fun p => ?_⟩
  rw [mem_sortedSet, List.mem_map]
  constructor
  · rintro ⟨v, hv, rfl⟩
    rw [List.mem_filter, Bool.and_eq_true, List.contains_iff_mem, beq_iff_eq] at hv
    exact ⟨v, _, (hx v).1 hv.1, splitOn_proto.1 ⟨hv.2.1, rfl, rfl⟩, hv.2.2⟩
  · rintro ⟨v, w, hv, hp, hw⟩
    obtain ⟨h1, h2, h3⟩ := splitOn_proto.2 hp
    refine ⟨v, List.mem_filter.2 ⟨(hx v).2 hv, ?_⟩, h2⟩
    rw [Bool.and_eq_true, List.contains_iff_mem, beq_iff_eq, h3]
    exact ⟨h1, hw⟩

/-- C23: whatever the definitions, a list that `GetService` returns is exact. -/
theorem C23_result_exact {svcs : Defs} (hi : ItemsOk svcs) {t : Str} (ht : Word t) {n : Nat} {l : List Str}
    (h : getServiceF svcs n t = .ok l) :
    (∀ v, v ∈ l ↔ SvcOf svcs t v) ∧ FullyDefined svcs SvcLeaf t ∧ NoCycle' svcs SvcLeaf t :=
  ⟨((getServiceF_correct hi n t ht).1 l h).2.2, ((getServiceF_correct hi n t ht).1 l h).1,
    getServiceF_noCycle hi n t ht l h⟩

/-- C23: the depth bound of the model is no restriction. -/
theorem C23_depth {svcs : Defs} {m : Nat} {q : Str} (h : getServiceF svcs m q ≠ .error .diverges) :
    getService svcs q = getServiceF svcs m q := getService_fuel h

/-- C23 refuted: all tokens defined, a cycle of two tokens: `GetService` recurses beyond every depth. -/
theorem C23_cycle_diverges {svcs : Defs} (hi : ItemsOk svcs) {t : Str} (ht : Word t)
    (hc : ¬ NoCycle' svcs SvcLeaf t) (hd : FullyDefined svcs SvcLeaf t) (n : Nat) :
    getServiceF svcs n t = .error .diverges := by
  cases h : getServiceF svcs n t with
  | ok l => exact absurd (getServiceF_noCycle hi n t ht l h) hc
  | error e =>
    rcases (getServiceF_correct hi n t ht).2 e h with rfl | ⟨_, h2⟩
    · rfl
    · exact absurd hd h2

/-- nested services with a shared leaf, a token naming itself, and both cases of a protocol name -/
def exSvcs : Defs :=
  [("WEB".toList, ["HTTP".toList, "HTTPS # tls".toList, "80/tcp".toList]),
   ("HTTP".toList, ["80/tcp".toList, "HTTP".toList]),
   ("HTTPS".toList, ["443/TCP".toList, "443/udp # quic".toList])]

theorem exSvcs_noCycle' : NoCycle' exSvcs SvcLeaf "WEB".toList := by
  refine Subrelation.accessible (r := InvImage (· < ·)
    (fun s : Str => if s = "WEB".toList then 1 else 0)) ?_ (InvImage.accessible _ (Nat.lt_wfRel.wf.apply _))
  rintro v u ⟨h1, h2, h3⟩
  obtain ⟨e, he, rfl, i, hi, rfl⟩ := hasValue_item h1
  have : ∀ e ∈ exSvcs, ∀ i ∈ e.2, SvcLeaf (itemTok i) ∨ itemTok i = e.1 ∨
      (if itemTok i = "WEB".toList then 1 else 0) < (if e.1 = "WEB".toList then 1 else 0) := by decide
  exact ((this e he i hi).resolve_left h2).resolve_left h3

example : ItemsOk exSvcs ∧ Word "WEB".toList ∧ NoCycle' exSvcs SvcLeaf "WEB".toList ∧
    FullyDefined exSvcs SvcLeaf "WEB".toList ∧
    (getService exSvcs "WEB".toList).map (·.map String.ofList) = .ok ["443/TCP", "443/udp", "80/tcp"] ∧
    (getServiceByProto exSvcs "WEB".toList "tcp".toList).map (·.map String.ofList) = .ok ["443", "80"] :=
  ⟨itemsOk_of (by decide), by decide, exSvcs_noCycle', fullyDefined_of (by decide) (by decide), by decide, by decide⟩

/-- C23 refuted, from a definitions directory: it loads without error and `GetService('A')` does not
return. -/
theorem C23_refuted : ∃ st, load [["A = B".toList, "B = A".toList]] [["N = 10.0.0.0/8".toList]] = .ok st ∧
    ∀ n, getServiceF st.services n "A".toList = .error .diverges := by
  refine ⟨_, rfl, fun n => ?_⟩
  refine C23_cycle_diverges (svcs := [("A".toList, ["B".toList]), ("B".toList, ["A".toList])])
    (itemsOk_of (by decide)) (by decide) ?_ (fullyDefined_of (by decide) (by decide)) n
  intro hacc
  have : ∀ t, NoCycle' [("A".toList, ["B".toList]), ("B".toList, ["A".toList])] SvcLeaf t →
      t ≠ "A".toList ∧ t ≠ "B".toList := by
    intro t ht
    induction ht with
    | intro t _ ih =>
      constructor
      · rintro rfl
        exact (ih "B".toList ⟨⟨["B".toList], "B".toList, rfl, by decide, by decide⟩, by decide, by decide⟩).2 rfl
      · rintro rfl
        exact (ih "A".toList ⟨⟨["A".toList], "A".toList, rfl, by decide, by decide⟩, by decide, by decide⟩).1 rfl
  exact (this _ hacc).1 rfl

/-! ### C24 -/

/-- C24: definition lines of one kind, loaded into a fresh object without error, define exactly what
they say: each name once, with its own values and those of its continuation lines, in order. -/
theorem C24_kept {ty : DefType} {texts : List Str} {lines : List Line} (hf : IsFile texts lines) {st : State}
    (h : parseLines ty {} texts = .ok st) :
    st.defs ty = meaning [] lines ∧ (lineNames lines).Nodup := by
  have hok := parseLines_lineOk hf h
  obtain ⟨h1, h2⟩ := parseLines_good (good_init ty) hf hok
  rcases Classical.em ((lineNames lines).Nodup ∧ ∀ n ∈ lineNames lines, n ∉ keys []) with hc | hc
  · obtain ⟨st', e, g⟩ := h1 hc
    rw [h] at e; cases e
    exact ⟨g.1, hc.1⟩
  · rw [h2 hc] at h; cases h

/-- C24: a name defined twice is rejected: `NamespaceCollisionError`, unless a service line was
already refused for its syntax. -/
theorem C24_duplicate {ty : DefType} {texts : List Str} {lines : List Line} (hf : IsFile texts lines)
    (hd : ¬ (lineNames lines).Nodup) :
    parseLines ty {} texts = .error (.raised "NamespaceCollisionError") ∨
    (ty = .services ∧ parseLines ty {} texts = .error (.raised "NamingSyntaxError")) := by
  cases h : parseLines ty {} texts with
  | ok st => exact absurd (C24_kept hf h).2 hd
  | error e =>
    rcases parseLines_error h with rfl | ⟨h1, rfl⟩
    · exact .inl rfl
    · exact .inr ⟨h1, rfl⟩

/-- C24: for any text at all, lines loaded into any object only add names that were not there and
only append to existing definitions; no definition is replaced or reordered. -/
theorem C24_history {ty : DefType} {texts : List Str} {st st' : State}
    (h : parseLines ty st texts = .ok st') (hn : ∀ ty, (keys (st.defs ty)).Nodup) :
    (∀ ty, (keys (st'.defs ty)).Nodup) ∧
    ∀ ty t items, (st.defs ty).lookup t = some items →
      ∃ more, (st'.defs ty).lookup t = some (items ++ more) :=
  ⟨parseLines_nodup h hn, parseLines_extends h (fun _ _ items hl => ⟨[], by rw [hl, List.append_nil]⟩)⟩

/-- C24 (partial): a definitions directory loaded without error defines exactly what its service
files and its network files say. Missing: network files whose first line continues a definition; its
values are added to the last *service* (`C24_refuted`). -/
theorem C24_directory_partial {svcFiles netFiles : List (List Str)} {ks ns : List Line}
    (hs : IsFile svcFiles.flatten ks) (hn : IsFile netFiles.flatten ns) (hst : StartsDef ns) {st : State}
    (h : load svcFiles netFiles = .ok st) :
    st.services = meaning [] ks ∧ st.networks = meaning [] ns ∧ (lineNames ks).Nodup ∧ (lineNames ns).Nodup := by
  obtain ⟨s1, h1, _, h2, _⟩ := load_ok h
  obtain ⟨a, b⟩ := C24_kept hs h1
  have hw : Weak .networks s1 [] (meaning [] ks) := ⟨(services_networks h1).1, by simp [keys], a⟩
  obtain ⟨c1, c2⟩ := parseLines_weak hw hst hn (parseLines_lineOk hn h2)
  rcases Classical.em ((lineNames ns).Nodup ∧ ∀ n ∈ lineNames ns, n ∉ keys []) with hc | hc
  · obtain ⟨st', e, g⟩ := c1 hc
    rw [h2] at e; cases e
    exact ⟨g.2.2, g.1, b, hc.1⟩
  · rw [c2 hc] at h2; cases h2

/-- C24 refuted: a network file that starts with a value line changes a service definition. -/
theorem C24_refuted : ∃ st, load [["HTTP = 80/tcp".toList]] [["10.0.0.0/8".toList, "N = 10.0.0.0/8".toList]] = .ok st ∧
    st.services.lookup "HTTP".toList = some ["80/tcp".toList, "10.0.0.0/8".toList] :=
  ⟨_, rfl, rfl⟩

theorem exVals1 : Vals " 10.0.0.0/8".toList ["10.0.0.0/8".toList] :=
  Vals.cons (sp := " ".toList) (v := "10.0.0.0/8".toList) (rest := []) (by unfold Blank; decide) (by decide) (by decide)
    (.inl rfl) (.nil (by intro c hc; cases hc))

/-- the file used by the examples reads as three lines -/
theorem exFile : IsFile ["A = 10.0.0.0/8# ten\n".toList, "\n".toList, "  B\n".toList]
    [.define "A".toList ["10.0.0.0/8".toList] " ten".toList, .blank, .cont ["B".toList] []] := by
  refine .cons (s := "A = 10.0.0.0/8# ten".toList) ⟨[], "\n".toList, (by intro c hc; cases hc), by unfold Blank; decide, rfl, by decide⟩ ?_
    (.cons (s := []) ⟨"\n".toList, [], by unfold Blank; decide, (by intro c hc; cases hc), rfl, by decide⟩ .empty
      (.cons (s := "B".toList) ⟨"  ".toList, "\n".toList, by unfold Blank; decide, by unfold Blank; decide, rfl, by decide⟩ ?_ .nil))
  · exact IsLine.define (n := "A".toList) (sp := " ".toList) (body := " 10.0.0.0/8".toList) (tail := "# ten".toList)
      ⟨by decide, by decide⟩ (by unfold Blank; decide) exVals1 (.inr ⟨rfl, by decide, by decide⟩)
  · exact IsLine.cont (v := "B".toList) (rest := []) (tail := []) (by decide) (by decide) (.inl rfl)
      (.nil (by intro c hc; cases hc)) (.inl ⟨rfl, rfl⟩)

example : ∃ st, parseLines .networks {} ["A = 10.0.0.0/8# ten\n".toList, "\n".toList, "  B\n".toList] = .ok st ∧
    st.networks = [("A".toList, ["10.0.0.0/8 #  ten".toList, "B".toList])] := ⟨_, rfl, rfl⟩

/-! ### C25 -/

/-- C25 (partial): after a directory has been loaded, every network value without a comment that
starts with a letter and has no colon is a defined network. Missing: values with a comment or with
another spelling are not checked (`C25_refuted`). -/
theorem C25_networks_partial {svcFiles netFiles : List (List Str)} {st : State}
    (h : load svcFiles netFiles = .ok st) :
    ∀ e ∈ st.networks, ∀ i ∈ e.2, '#' ∉ i → LetterFirst i → ':' ∉ i → i ∈ keys st.networks := by
  obtain ⟨s1, h1, _, h2, h3⟩ := load_ok h
  have ht : Tracked .networks s1 := by
    intro e he
    rw [show s1.defs .networks = [] from (services_networks h1).1] at he
    cases he
  intro e he i hi a1 a2 a3
  rcases parseLines_tracked h2 ht e he i hi a1 (alphaHead_iff.2 a2) a3 with hk | hu
  · exact hk
  · rw [show st.unseen .networks = [] from h3] at hu; cases hu

/-- C25 (partial): the same for services, for network files that start with a definition. -/
theorem C25_services_partial {svcFiles netFiles : List (List Str)} {st : State} {ns : List Line}
    (hn : IsFile netFiles.flatten ns) (hst : StartsDef ns) (h : load svcFiles netFiles = .ok st) :
    ∀ e ∈ st.services, ∀ i ∈ e.2, '#' ∉ i → LetterFirst i → ':' ∉ i → i ∈ keys st.services := by
  obtain ⟨s1, h1, h0, h2, _⟩ := load_ok h
  have hsv : st.services = s1.services := by
    have hw : Weak .networks s1 [] s1.services := ⟨(services_networks h1).1, by simp [keys], rfl⟩
    obtain ⟨c1, c2⟩ := parseLines_weak hw hst hn (parseLines_lineOk hn h2)
    rcases Classical.em ((lineNames ns).Nodup ∧ ∀ n ∈ lineNames ns, n ∉ keys []) with hc | hc
    · obtain ⟨st', e, g⟩ := c1 hc
      rw [h2] at e; cases e
      exact g.2.2
    · rw [c2 hc] at h2; cases h2
  have ht : Tracked .services s1 := parseLines_tracked h1 (by intro e he; cases he)
  rw [hsv]
  intro e he i hi a1 a2 a3
  rcases ht e he i hi a1 (alphaHead_iff.2 a2) a3 with hk | hu
  · exact hk
  · rw [show s1.unseen .services = [] from h0] at hu; cases hu

/-- C25 (partial): hence, when references carry no comment, start with a letter and have no colon,
resolving a defined network never raises `UndefinedAddressError`. -/
theorem C25_resolves_partial {svcFiles netFiles : List (List Str)} {st : State} {ip : IpParser}
    (hip : DotOrColon ip) (h : load svcFiles netFiles = .ok st)
    (href : ∀ t v, HasValue st.networks t v → ip v = none → LetterFirst v ∧ ':' ∉ v)
    (hbare : ∀ e ∈ st.networks, ∀ i ∈ e.2, ∀ v, IsItem i v → ip v = none → i = v)
    {t : Str} (ht : Word t) (hk : t ∈ keys st.networks) (n : Nat) :
    getNetF st.networks ip n t ≠ .error (.raised "UndefinedAddressError") := by
  obtain ⟨hi, _, _, _⟩ := C22_loaded h
  have hfd : FullyDefined st.networks (NetLeaf ip) t := by
    intro u hu
    rw [lookup_isSome]
    induction hu with
    | refl => exact hk
    | step _ h2 h3 =>
      have hnone := Option.not_isSome_iff_eq_none.1 h3
      obtain ⟨items, i, hl, hi, hv⟩ := h2
      have := hbare _ (lookup_mem hl) i hi _ hv hnone
      subst this
      obtain ⟨b1, b2⟩ := href _ _ ⟨items, i, hl, hi, hv⟩ hnone
      exact C25_networks_partial h _ (lookup_mem hl) i hi (fun hh => (hv.1.2 _ hh).2 rfl) b1 b2
  intro he
  rcases (getNetF_correct hi hip n t ht).2 _ he with h1 | ⟨_, h2⟩
  · cases h1
  · exact h2 hfd

example : ∃ st, load [["HTTP = 80/tcp".toList]] [["A = 10.0.0.0/8 B".toList, "B = 192.168.1.0/24 # b".toList]] = .ok st ∧
    keys st.networks = ["A".toList, "B".toList] ∧
    (getNet st.networks exIp "A".toList).map List.length = .ok 2 := ⟨_, rfl, by decide, by decide⟩

/-- C25 refuted: a reference with a comment is not checked; the directory loads and resolving the
token fails. -/
theorem C25_refuted : ∃ st, load [["HTTP = 80/tcp".toList]] [["A = B # todo".toList]] = .ok st ∧
    getNet st.networks exIp "A".toList = .error (.raised "UndefinedAddressError") :=
  ⟨_, rfl, by rfl⟩

/-! ### C26 -/

/-- Membership depends on the block only. -/
theorem mem_of_block {a b : Net} (h : block a = block b) {v : Ver} {x : Nat} : Mem a v x ↔ Mem b v x := by
  unfold block at h
  simp only [Prod.mk.injEq] at h
  unfold Mem
  rw [h.1, h.2.1, h.2.2]

/-- C26 (partial): `GetIpParents` of an address returns, sorted, exactly the tokens whose `GetNet` list
has a network containing the address, for definitions without loops in which every token is defined,
names start with a letter and addresses with a digit. Missing: addresses starting with a letter
(`fe80::/10`) and tokens starting with a digit are skipped (`C26_ip_refuted`). -/
theorem C26_ip_partial {nets : Defs} {ip : IpParser} (hi : ItemsOk nets) (hn : (keys nets).Nodup)
    (hip : DotOrColon ip) (hwf : ∀ v a, ip v = some a → WF a) (hnames : TokenNames nets ip)
    (hkw : ∀ t ∈ keys nets, Word t) (hdig : DigitAddrs nets ip) (hloop : NoLoop nets (NetLeaf ip))
    (hdef : ∀ t ∈ keys nets, FullyDefined nets (NetLeaf ip) t) {q : Net} (hq : WF q) :
    ∃ l, getIpParents nets ip q = .ok l ∧ l.Pairwise (fun a b => strLt a b = true) ∧
      ∀ t, t ∈ l ↔ ∃ ns, getNet nets ip t = .ok ns ∧ t ∈ keys nets ∧ ∃ n ∈ ns, ∀ v x, Mem q v x → Mem n v x := by
  obtain ⟨l, h1, h2, h3⟩ := getIpParents_correct hi hn hnames hdig hloop q
  refine ⟨l, h1, h2, fun t => ?_⟩
  rw [h3]
  constructor
  · rintro ⟨a, s, ⟨hr, v, hv, ha⟩, hs⟩
    have hk : t ∈ keys nets := by
      rcases reach_cases hr with rfl | ⟨_, h, _⟩
      · exact above_key hv
      · exact above_key h
    obtain ⟨ns, hns, hex⟩ := C22_resolves_partial hi hip (hkw t hk) (noCycle_of_noLoop hloop t) (hdef t hk)
    obtain ⟨n, hnm, hb, _⟩ := hex.2 a s ⟨hr, v, hv, ha⟩
    refine ⟨ns, hns, hk, n, hnm, fun v' x hx => (mem_of_block hb).2 ?_⟩
    exact (subnetOf_iff hq (hwf v a ha)).1 hs v' x hx
  · rintro ⟨ns, hns, hk, n, hnm, hsub⟩
    obtain ⟨ns', hns', hex⟩ := C22_resolves_partial hi hip (hkw t hk) (noCycle_of_noLoop hloop t) (hdef t hk)
    rw [hns] at hns'; cases hns'
    obtain ⟨a, s, hof, hb, _⟩ := hex.1 n hnm
    refine ⟨a, s, hof, ?_⟩
    obtain ⟨_, v, _, ha⟩ := hof
    exact (subnetOf_iff hq (hwf v a ha)).2 (fun v' x hx => (mem_of_block hb).1 (hsub v' x hx))

theorem exIp_wf : ∀ v a, exIp v = some a → WF a := by
  intro v a h
  unfold exIp at h
  split at h
  · cases h; exact ⟨by decide, by decide, by decide⟩
  · split at h
    · cases h; exact ⟨by decide, by decide, by decide⟩
    · split at h
      · cases h; exact ⟨by decide, by decide, by decide⟩
      · split at h
        · cases h; exact ⟨by decide, by decide, by decide⟩
        · cases h

example : TokenNames exNets exIp ∧ DigitAddrs exNets exIp ∧ (∀ t ∈ keys exNets, Word t) ∧
    (keys exNets).Nodup ∧
    (getIpParents exNets exIp { ver := .v4, addr := 0xc0a80105, plen := 32 }).map (·.map String.ofList) =
      .ok ["A", "B", "C"] ∧
    (getIpParents exNets exIp { ver := .v4, addr := 0x0a000001, plen := 32 }).map (·.map String.ofList) =
      .ok ["A"] := by
  refine ⟨?_, ?_, by decide, by decide, by decide, by decide⟩
  · intro t ht
    have : ∀ t ∈ keys exNets, alphaHead t = true ∧ exIp t = none := by decide
    exact ⟨alphaHead_iff.1 (this t ht).1, (this t ht).2⟩
  · intro e he i hi v hv hs
    have : ∀ e ∈ exNets, ∀ i ∈ e.2, (exIp (itemTok i)).isSome → digitHead (itemTok i) = true := by decide
    rw [← itemTok_item hv] at hs ⊢
    exact digitHead_iff.1 (this e he i hi hs)

/-- C26 refuted for addresses: a token that resolves to a network containing the address is missing
from the answer. -/
theorem C26_ip_refuted : ∃ (nets : Defs) (q : Net), WF q ∧ getIpParents nets exIp q = .ok [] ∧
    ∃ n, getNet nets exIp "LINK".toList = .ok [n] ∧ ∀ v x, Mem q v x → Mem n v x := by
  refine ⟨[("LINK".toList, ["fe80::/10".toList])],
    { ver := .v6, addr := 0xfe800000000000000000000000000001, plen := 128 },
    ⟨by decide, by decide, by decide⟩, by decide, _, rfl, ?_⟩
  rintro v x ⟨rfl, h1, h2⟩
  refine ⟨rfl, ?_, ?_⟩
  · exact Nat.le_trans (by decide) h1
  · exact Nat.lt_of_lt_of_le h2 (by decide)

/-- C26 (partial): `GetPortParents` returns, sorted, exactly the tokens whose `GetService` list has a
value covering the port for that protocol, and raises `UndefinedPortError` when there is none, for
acyclic, fully defined services with well-formed port values. Missing: the protocol is compared with
its case, unlike `GetServiceByProto` (`C26_port_refuted`). -/
theorem C26_port_partial {svcs : Defs} (hi : ItemsOk svcs) (hn : (keys svcs).Nodup) (hsv : ServiceValues svcs)
    (hkw : ∀ t ∈ keys svcs, Word t) (hloop : ∀ t ∈ keys svcs, NoCycle' svcs SvcLeaf t)
    (hdef : ∀ t ∈ keys svcs, FullyDefined svcs SvcLeaf t)
    {q w : Str} {n : Nat} (hq : Dec q n) (hw : Word w) (hws : '/' ∉ w) :
    (∃ l, getPortParents svcs q w = .ok l ∧ l ≠ [] ∧ l.Pairwise (fun a b => strLt a b = true) ∧
      ∀ t, t ∈ l ↔ ∃ vs, getService svcs t = .ok vs ∧ t ∈ keys svcs ∧ ∃ v ∈ vs, Covers v n w) ∨
    (getPortParents svcs q w = .error (.raised "UndefinedPortError") ∧
      ∀ t ∈ keys svcs, ∀ vs, getService svcs t = .ok vs → ∀ v ∈ vs, ¬ Covers v n w) := by
  have hres : ∀ t ∈ keys svcs, ∃ l, getService svcs t = .ok l ∧ ∀ v, v ∈ l ↔ SvcOf svcs t v := by
    intro t ht
    obtain ⟨l, h1, _, h2⟩ := C23_resolves_partial hi (hkw t ht) (hloop t ht) (hdef t ht)
    exact ⟨l, h1, h2⟩
  have hkey : ∀ t v, SvcOf svcs t v → t ∈ keys svcs := by
    rintro t v ⟨s, hr, hv, _⟩
    rcases reach_cases hr with rfl | ⟨_, h, _⟩
    · exact above_key hv
    · exact above_key h
  obtain ⟨c1, c2⟩ := getPortParents_spec hi hn hsv hres hq hw hws
  rcases Classical.em (∃ t v, SvcOf svcs t v ∧ Covers v n w) with hex | hno
  · obtain ⟨l, h1, h2, h3⟩ := c1 hex
    refine .inl ⟨l, h1, ?_, h2, fun t => ?_⟩
    · rintro rfl
      obtain ⟨t, ht⟩ := hex
      have := (h3 t).2 ht
      cases this
    · rw [h3]
      constructor
      · rintro ⟨v, hs, hc⟩
        obtain ⟨vs, hv1, hv2⟩ := hres t (hkey t v hs)
        exact ⟨vs, hv1, hkey t v hs, v, (hv2 v).2 hs, hc⟩
      · rintro ⟨vs, hvs, hk, v, hv, hc⟩
        obtain ⟨vs', hv1, hv2⟩ := hres t hk
        rw [hvs] at hv1; cases hv1
        exact ⟨v, (hv2 v).1 hv, hc⟩
  · refine .inr ⟨c2 hno, fun t ht vs hvs v hv hc => hno ⟨t, v, ?_, hc⟩⟩
    obtain ⟨vs', hv1, hv2⟩ := hres t ht
    rw [hvs] at hv1; cases hv1
    exact (hv2 v).1 hv

theorem dec80 : Dec "80".toList 80 := by
  refine ⟨?_, by decide⟩
  exact NumFrom.more (c := '8') (by unfold Digit; decide) (NumFrom.one (acc := 8) (c := '0') (by unfold Digit; decide))

/-- services of the example -/
def exSvcs2 : Defs := [("WEB".toList, ["HTTP # web".toList]), ("HTTP".toList, ["80-81/tcp".toList])]

example : (keys exSvcs2).Nodup ∧ (∀ t ∈ keys exSvcs2, Word t) ∧ NoLoop exSvcs2 SvcLeaf ∧
    (∀ t ∈ keys exSvcs2, FullyDefined exSvcs2 SvcLeaf t) ∧ ServiceValues exSvcs2 ∧
    (getPortParents exSvcs2 "80".toList "tcp".toList).map (·.map String.ofList) = .ok ["HTTP", "WEB"] := by
  refine ⟨by decide, by decide, noLoop_of (fun s => if s = "WEB".toList then 1 else 0) (by decide),
    fun t ht => fullyDefined_of (by decide) ht, ?_, by decide⟩
  intro t v hv hs
  obtain ⟨e, he, rfl, i, hi, rfl⟩ := hasValue_item hv
  have : ∀ e ∈ exSvcs2, ∀ i ∈ e.2, '/' ∈ itemTok i → itemTok i = "80-81/tcp".toList := by decide
  rw [this e he i hi hs]
  refine ⟨80, 81, "tcp".toList, by decide, "80-81".toList, rfl, .inr ⟨"80".toList, "81".toList, rfl, dec80, ?_, by decide⟩⟩
  exact NumFrom.more (c := '8') (by unfold Digit; decide) (NumFrom.one (acc := 8) (c := '1') (by unfold Digit; decide))

/-- C26 refuted for ports: `GetServiceByProto` finds the port, `GetPortParents` does not. -/
theorem C26_port_refuted : ∃ svcs : Defs,
    getServiceByProto svcs "WEB".toList "tcp".toList = .ok ["80".toList] ∧
    getPortParents svcs "80".toList "tcp".toList = .error (.raised "UndefinedPortError") :=
  ⟨[("WEB".toList, ["80/TCP".toList])], by rfl, by rfl⟩

/-- C26 (partial): `GetNetParents` and `GetServiceParents` return exactly the tokens that mention the
query directly or through nested references, for definitions without loops in which references carry
no comment. Missing: a reference with a comment hides the tokens above it (`C26_parents_refuted`). -/
theorem C26_parents_partial {g : Defs} (hi : ItemsOk g) (hn : (keys g).Nodup) (hb : BareRefs g)
    (hloop : NoLoop g AnyRef) (q : Str) :
    ∃ l, getParents g q = .ok l ∧ ∀ x, x ∈ l ↔ Above g AnyRef q x := by
  obtain ⟨n, l, h⟩ := getParents_terminates hi hn hloop q
  exact ⟨l, by rw [getParents_fuel (m := n) (by rw [h]; simp), h], getParentsF_correct hi hn hb n q l h⟩

/-- nested networks for the example -/
def exNets3 : Defs :=
  [("A".toList, ["B".toList]), ("B".toList, ["10.0.0.0/8 # ten".toList]), ("C".toList, ["A".toList, "B".toList])]

example : ItemsOk exNets3 ∧ (keys exNets3).Nodup ∧ BareRefs exNets3 ∧ NoLoop exNets3 AnyRef ∧
    (getParents exNets3 "10.0.0.0/8".toList).map (·.map String.ofList) = .ok ["B", "A", "C"] := by
  refine ⟨itemsOk_of (by decide), by decide, ?_, noLoop_of (fun s => if s = "C".toList then 3 else
    if s = "A".toList then 2 else if s = "B".toList then 1 else 0) (by decide), by decide⟩
  intro e he i hi v hv hk
  have : ∀ e ∈ exNets3, ∀ i ∈ e.2, itemTok i ∈ keys exNets3 → i = itemTok i := by decide
  rw [← itemTok_item hv] at hk ⊢
  exact this e he i hi hk

/-- C26 refuted for token queries: `C` contains `10.0.0.0/8` through `A` and `B`, but is missing. -/
theorem C26_parents_refuted : ∃ g : Defs, Above g AnyRef "10.0.0.0/8".toList "C".toList ∧
    (getParents g "10.0.0.0/8".toList) = .ok ["B".toList] := by
  refine ⟨[("B".toList, ["10.0.0.0/8".toList]), ("C".toList, ["B # nested".toList])],
    ⟨"B".toList, ⟨["10.0.0.0/8".toList], "10.0.0.0/8".toList, rfl, by decide, by decide⟩, id, ?_⟩, by rfl⟩
  exact .step .refl ⟨["B # nested".toList], "B # nested".toList, rfl, by decide, by decide⟩ id

end Verif.Props
