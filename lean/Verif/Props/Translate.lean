import Verif.Lemmas.Translate
import Verif.Props.Policy
import Verif.Props.Naming

/-!
Property theorems C19 and C52: translation of parsed terms with the definitions.
-/

namespace Verif.Props
open Verif Verif.Spec Verif.Policy Verif.Naming

/-! ### C19 -/

/-- C19: when translation succeeds, the ports of the term are exactly the ports that the named
services define for one of its protocols, and a field stays empty only if the term names no service. -/
theorem C19_ports_exact {e : Env} (g : GoodEnv e) {r : RawTerm} (hw : WordTerm r) {ab : Bool} {t : Term}
    (h : translateTerm e ab r = .ok t) :
    (∀ x, PMem t.port x ↔ SvcPort e r.port r.rest.protocol x) ∧
    (∀ x, PMem t.sourcePort x ↔ SvcPort e r.sourcePort r.rest.protocol x) ∧
    (∀ x, PMem t.destinationPort x ↔ SvcPort e r.destinationPort r.rest.protocol x) ∧
    (t.port = [] ↔ r.port = []) ∧ (t.sourcePort = [] ↔ r.sourcePort = []) ∧
    (t.destinationPort = [] ↔ r.destinationPort = []) := by
  obtain ⟨t0, p, sp, dp, h1, h2, h3, h4, h5, _⟩ := translateTerm_ok h
  obtain ⟨_, _, _, _, _, _, _, _, _, _, _, _, rfl⟩ := resolveTerm_ok h1
  obtain ⟨a1, a2, a3⟩ := translateField_ok g (fun t ht => hw.svcs t (.inl ht)) h2
  obtain ⟨b1, b2, b3⟩ := translateField_ok g (fun t ht => hw.svcs t (.inr (.inl ht))) h3
  obtain ⟨c1, c2, c3⟩ := translateField_ok g (fun t ht => hw.svcs t (.inr (.inr ht))) h4
  obtain ⟨_, _, _, _, _, _, _, _, _, _, rfl⟩ := addressCleanup_shape h5
  dsimp only at a1 a2 a3 b1 b2 b3 c1 c2 c3 ⊢
  exact ⟨fun x => ((portField a1).2 x).trans (a2 x), fun x => ((portField b1).2 x).trans (b2 x),
    fun x => ((portField c1).2 x).trans (c2 x), (portField a1).1.trans a3, (portField b1).1.trans b3,
    (portField c1).1.trans c3⟩

/-- C19: translation of one field, given that its services resolve: if no port is defined for the
term's protocols, `TermPortProtocolError` is raised; otherwise the field has exactly those ports. -/
theorem C19_rejects {e : Env} (g : GoodEnv e) {ports : List Str} (hw : ∀ t ∈ ports, Word t) (hne : ports ≠ [])
    (hc : ∀ t ∈ ports, NoCycle' e.svcs SvcLeaf t) (hd : ∀ t ∈ ports, FullyDefined e.svcs SvcLeaf t)
    (protos : List String) :
    ((¬ ∃ x, SvcPort e ports protos x) → translateField e ports protos = .error (.raised "TermPortProtocolError")) ∧
    ((∃ x, SvcPort e ports protos x) → ∃ l, translateField e ports protos = .ok l ∧
      ∀ x, PMem l x ↔ SvcPort e ports protos x) := by
  have htot : ∃ l, translatePorts e ports protos = .ok l := by
    refine concatM_total fun pr _ => concatM_total fun t ht => ?_
    obtain ⟨l, hl, _⟩ := C23_byProto_partial g.svcs (hw t ht) (hc t ht) (hd t ht) pr.toList
    exact translateOne_total g (hw t ht) hl
  obtain ⟨l, hl⟩ := htot
  obtain ⟨h1, h2⟩ := translatePorts_ok g hw hl
  have hem : ports.isEmpty = false := by simpa using hne
  unfold translateField
  rw [hem, hl]
  cases l with
  | nil =>
    refine ⟨fun _ => rfl, fun ⟨x, hx⟩ => ?_⟩
    obtain ⟨_, hr, _⟩ := (h2 x).2 hx
    cases hr
  | cons r l =>
    refine ⟨fun hno => absurd ⟨r.1, (h2 r.1).1 ⟨r, List.mem_cons_self .., Nat.le_refl _, h1 r (List.mem_cons_self ..)⟩⟩ hno,
      fun _ => ⟨r :: l, rfl, h2⟩⟩

/-- the definitions of the examples -/
def exEnv : Env := { nets := exNets, svcs := exSvcs2, ip := exIp }

theorem exEnv_values : ∀ t v, HasValue exSvcs2 t v → '/' ∈ v → v = "80-81/tcp".toList := by
  intro t v hv hs
  obtain ⟨e, he, rfl, i, hi, rfl⟩ := hasValue_item hv
  have : ∀ e ∈ exSvcs2, ∀ i ∈ e.2, '/' ∈ itemTok i → itemTok i = "80-81/tcp".toList := by decide
  exact this e he i hi hs

theorem ex8081 : PortValue "80-81/tcp".toList 80 81 "tcp".toList := by
  refine ⟨by decide, "80-81".toList, rfl, .inr ⟨"80".toList, "81".toList, rfl, dec80, ?_, by decide⟩⟩
  exact NumFrom.more (c := '8') (by unfold Digit; decide) (NumFrom.one (acc := 8) (c := '1') (by unfold Digit; decide))

theorem exEnv_good : GoodEnv exEnv where
  nets := exNets_items
  svcs := itemsOk_of (by decide)
  dots := exIp_dotOrColon
  wf := exIp_wf
  values := fun t v hv hs => by rw [exEnv_values t v hv hs]; exact ⟨80, 81, _, ex8081⟩
  ordered := fun t v lo hi w hv hp => by
    have hs : '/' ∈ v := by obtain ⟨_, p, rfl, _⟩ := hp; simp
    rw [exEnv_values t v hv hs] at hp
    obtain ⟨rfl, rfl, _⟩ := portValue_unique hp ex8081
    decide

/-- a term naming nested tokens -/
def exRaw : RawTerm :=
  { rest := { name := "t".toList, action := ["accept"], protocol := ["tcp", "udp"] },
    sourceAddress := ["A".toList], sourceAddressExclude := ["C".toList], destinationPort := ["WEB".toList] }

theorem exRaw_words : WordTerm exRaw := by
  constructor
  · intro t ht
    have : t = "A".toList ∨ t = "C".toList := by simpa [exRaw] using ht
    rcases this with rfl | rfl <;> decide
  · intro t ht
    have : t = "WEB".toList := by simpa [exRaw] using ht
    subst this; decide

example : GoodEnv exEnv ∧ WordTerm exRaw ∧
    ((translateTerm { exEnv with optimize := false } false exRaw).map fun t => t.destinationPort) = .ok [(80, 81)] ∧
    ((translateTerm { exEnv with optimize := false } false
      { exRaw with rest := { exRaw.rest with protocol := ["udp"] } }).map fun t => t.destinationPort) =
      .error (.raised "TermPortProtocolError") :=
  ⟨exEnv_good, exRaw_words, by decide +kernel, by decide +kernel⟩

/-! ### C20 for translated terms -/

/-- C20 (partial, as `C20_sanity_partial`): every term of a translated policy passed the sanity rules;
a term that breaks them is never part of a policy. -/
theorem C20_translated_partial {e : Env} {r : RawTerm} {ab : Bool} {t : Term}
    (h : translateTerm e ab r = .ok t) : SaneTerm t := by
  obtain ⟨_, _, _, _, _, _, _, _, _, h6⟩ := translateTerm_ok h
  exact (C20_sanity_partial t).1 h6

/-! ### C52 -/

/-- Resolved addresses match like the tokens, when the included tokens name at least one network. -/
theorem tokMatch_iff {e : Env} (g : GoodEnv e) {inc exc : List Str} (hi : ∀ t ∈ inc, Word t) (he : ∀ t ∈ exc, Word t)
    {l m : List Net} (hl : resolveNets e inc = .ok l) (hm : resolveNets e exc = .ok m) (hv : NotVoid e inc) (v : Ver)
    (x : Nat) : AddrMatch l m v x ↔ TokMatch e inc exc v x := by
  obtain ⟨_, a2, a3⟩ := resolveNets_ok g hi hl
  obtain ⟨_, b2, _⟩ := resolveNets_ok g he hm
  unfold AddrMatch TokMatch
  rw [a2, b2]
  have : l = [] ↔ inc = [] := by
    rw [a3]
    constructor
    · intro hno
      exact hv.resolve_right hno
    · rintro rfl ⟨t, ht, _⟩; cases ht
  rw [this]

/-- C52 (partial): a term that translates without error matches exactly the packets that its tokens and
service names describe. Missing: an included address list whose tokens are all empty; it is dropped
and the term matches every address (`C52_refuted`). -/
theorem C52_term_partial {e : Env} (g : GoodEnv e) {r : RawTerm} (hw : WordTerm r) {ab : Bool} {t : Term}
    (h : translateTerm e ab r = .ok t)
    (hv : NotVoid e r.address ∧ NotVoid e r.sourceAddress ∧ NotVoid e r.destinationAddress) (p : Packet) :
    Matches t p ↔ RawMatches e r p := by
  obtain ⟨t0, pp, sp, dp, h1, h2, h3, h4, h5, _⟩ := translateTerm_ok h
  obtain ⟨a, ae, s, se, d, de, e1, e2, e3, e4, e5, e6, rfl⟩ := resolveTerm_ok h1
  obtain ⟨a1, a2, a3⟩ := translateField_ok g (fun t ht => hw.svcs t (.inl ht)) h2
  obtain ⟨b1, b2, b3⟩ := translateField_ok g (fun t ht => hw.svcs t (.inr (.inl ht))) h3
  obtain ⟨c1, c2, c3⟩ := translateField_ok g (fun t ht => hw.svcs t (.inr (.inr ht))) h4
  have w1 : ∀ t ∈ r.address, Word t := fun t ht => hw.nets t (.inl ht)
  have w2 : ∀ t ∈ r.addressExclude, Word t := fun t ht => hw.nets t (.inr (.inl ht))
  have w3 : ∀ t ∈ r.sourceAddress, Word t := fun t ht => hw.nets t (.inr (.inr (.inl ht)))
  have w4 : ∀ t ∈ r.sourceAddressExclude, Word t := fun t ht => hw.nets t (.inr (.inr (.inr (.inl ht))))
  have w5 : ∀ t ∈ r.destinationAddress, Word t := fun t ht => hw.nets t (.inr (.inr (.inr (.inr (.inl ht)))))
  have w6 : ∀ t ∈ r.destinationAddressExclude, Word t := fun t ht => hw.nets t (.inr (.inr (.inr (.inr (.inr ht)))))
  have wf : AddrsWF { r.rest with
      address := a, addressExclude := ae, sourceAddress := s, sourceAddressExclude := se,
      destinationAddress := d, destinationAddressExclude := de,
      port := pp, sourcePort := sp, destinationPort := dp } :=
    ⟨(resolveNets_ok g w1 e1).1, (resolveNets_ok g w2 e2).1, (resolveNets_ok g w3 e3).1,
      (resolveNets_ok g w4 e4).1, (resolveNets_ok g w5 e5).1, (resolveNets_ok g w6 e6).1⟩
  rw [(C18_cleanup_preserves _ t _ _ wf a1 b1 c1 h5).1 p]
  have m1 := tokMatch_iff g w1 w2 e1 e2 hv.1 p.ver p.src
  have m2 := tokMatch_iff g w1 w2 e1 e2 hv.1 p.ver p.dst
  have m3 := tokMatch_iff g w3 w4 e3 e4 hv.2.1 p.ver p.src
  have m4 := tokMatch_iff g w5 w6 e5 e6 hv.2.2 p.ver p.dst
  unfold Matches RawMatches
  refine and_congr ?_ (and_congr ?_ Iff.rfl)
  · unfold MatchAddrs
    dsimp only
    rw [m1, m2, m3, m4]
    refine and_congr ?_ Iff.rfl
    constructor
    · rintro (⟨ha, hae⟩ | hh)
      · refine .inr (.inl (m1.1 ⟨.inl ha, ?_⟩))
        rw [hae]; rintro ⟨_, hn, _⟩; cases hn
      · exact .inr hh
    · rintro (⟨ha, hae⟩ | hh)
      · refine .inr (.inl ⟨.inl ha, ?_⟩)
        rw [hae]; rintro ⟨_, hn, _⟩; cases hn
      · exact .inr hh
  · unfold MatchPorts PortMatch SvcMatch
    dsimp only at a2 a3 b2 b3 c2 c3 ⊢
    rw [a2, a2, a3, b2, b3, c2, c3]

/-- definitions with a token that has no addresses -/
def exEmpty : Env :=
  { nets := [("EMPTY".toList, []), ("A".toList, ["10.0.0.0/8".toList])],
    svcs := [("HTTP".toList, ["80/tcp".toList])], ip := exIp }

/-- C52 refuted: a token without addresses in a source list makes the term match every source. -/
theorem C52_refuted : ∃ (st : State) (e : Env) (r : RawTerm) (t : Term) (p : Packet),
    load [["HTTP = 80/tcp".toList]] [["EMPTY =".toList, "A = 10.0.0.0/8".toList]] = .ok st ∧
    e.nets = st.networks ∧ e.svcs = st.services ∧ translateTerm e false r = .ok t ∧
    ¬ RawMatches e r p ∧ Matches t p := by
  refine ⟨_, exEmpty, { rest := { action := ["accept"] }, sourceAddress := ["EMPTY".toList] }, _, {}, rfl, rfl, rfl, rfl, ?_, ?_⟩
  · rintro ⟨⟨_, h, _⟩, _⟩
    rcases h.1 with h | ⟨t, ht, a, s, ⟨hr, v, hv, _⟩, _⟩
    · cases h
    · have ht : t = "EMPTY".toList := by simpa using ht
      subst ht
      have : ∀ v, ¬ HasValue [("EMPTY".toList, []), ("A".toList, ["10.0.0.0/8".toList])] "EMPTY".toList v := by
        rintro v ⟨items, i, h1, h2, _⟩
        have : items = [] := by
          have : List.lookup "EMPTY".toList [("EMPTY".toList, ([] : List Str)), ("A".toList, ["10.0.0.0/8".toList])] =
            some [] := by decide
          exact (Option.some.inj (this.symm.trans h1)).symm
        subst this; cases h2
      rcases reach_cases hr with rfl | ⟨u, hu, _⟩
      · exact this v hv
      · exact this u hu
  · decide

/-- C52 (partial): the same for a whole policy: each filter keeps its terms in order, each with the
packets its names describe. With shade checking, the terms must not be fully excluded
(`C17_refuted`). -/
theorem C52_policy_partial {e : Env} (g : GoodEnv e) {fs : List (Header × List RawTerm)}
    {pol : List (Header × List Term)} (h : buildPolicy e fs = .ok pol)
    (hw : ∀ f ∈ fs, ∀ r ∈ f.2, WordTerm r)
    (hv : ∀ f ∈ fs, ∀ r ∈ f.2, NotVoid e r.address ∧ NotVoid e r.sourceAddress ∧ NotVoid e r.destinationAddress)
    (hs : e.shadeCheck = false) :
    All₂ (fun f q => f.1 = q.1 ∧ f.2 ≠ [] ∧ All₂ (fun r t => ∀ p, Matches t p ↔ RawMatches e r p) f.2 q.2) fs pol := by
  have key : ∀ (fs : List (Header × List RawTerm)) (acc pol : List (Header × List Term)),
      buildPolicyFrom e acc fs = .ok pol → (∀ f ∈ fs, ∀ r ∈ f.2, WordTerm r) →
      (∀ f ∈ fs, ∀ r ∈ f.2, NotVoid e r.address ∧ NotVoid e r.sourceAddress ∧ NotVoid e r.destinationAddress) →
      ∃ new, pol = acc ++ new ∧
      All₂ (fun f q => f.1 = q.1 ∧ f.2 ≠ [] ∧ All₂ (fun r t => ∀ p, Matches t p ↔ RawMatches e r p) f.2 q.2) fs new := by
    intro fs
    induction fs with
    | nil =>
      intro acc pol h _ _
      rw [buildPolicyFrom] at h; cases h
      exact ⟨[], by simp, .nil⟩
    | cons f fs ih =>
      intro acc pol h hw hv
      rw [buildPolicyFrom] at h
      cases ha : addFilter e acc f with
      | error x => rw [ha] at h; cases h
      | ok acc' =>
        rw [ha] at h
        obtain ⟨new, hnew, hall⟩ := ih acc' pol h (fun f hf => hw f (List.mem_cons_of_mem _ hf))
          (fun f hf => hv f (List.mem_cons_of_mem _ hf))
        unfold addFilter at ha
        split at ha
        · cases ha
        next ts hts =>
          rw [hs] at ha
          simp only [Bool.false_eq_true, if_false, Except.ok.injEq] at ha
          subst ha
          refine ⟨(f.1, ts) :: new, by rw [hnew, List.append_assoc]; rfl, .cons ⟨rfl, ?_, ?_⟩ hall⟩
          · intro hem
            unfold translateTerms at hts
            rw [hem] at hts; cases hts
          · unfold translateTerms at hts
            split at hts
            · cases hts
            · have := listM_ok hts
              have w := hw f (List.mem_cons_self ..)
              have v := hv f (List.mem_cons_self ..)
              revert w v
              generalize f.2 = rs at this
              intro w v
              clear hts h hnew hall
              induction this with
              | nil => exact .nil
              | cons h1 _ ih2 =>
                exact .cons (fun p => C52_term_partial g (w _ (List.mem_cons_self ..)) h1 (v _ (List.mem_cons_self ..)) p)
                  (ih2 (fun r hr => w r (List.mem_cons_of_mem _ hr)) (fun r hr => v r (List.mem_cons_of_mem _ hr)))
  obtain ⟨new, hnew, hall⟩ := key fs [] pol h hw hv
  rw [hnew]; exact hall

example : (∃ t, translateTerm exEnv false exRaw = .ok t) ∧ NotVoid exEnv exRaw.address ∧
    NotVoid exEnv exRaw.sourceAddress ∧ NotVoid exEnv exRaw.destinationAddress := by
  refine ⟨?_, .inl rfl, .inr ⟨"A".toList, by decide, _, "A".toList, .refl, "10.0.0.0/8".toList, ?_, rfl⟩, .inl rfl⟩
  · cases h : translateTerm exEnv false exRaw with
    | ok t => exact ⟨t, rfl⟩
    | error x =>
      have : (translateTerm exEnv false exRaw matches .ok _) = true := by decide +kernel
      rw [h] at this; cases this
  · exact ⟨_, "10.0.0.0/8 # ten".toList, rfl, by decide, by decide, .inr ⟨"ten".toList, rfl⟩⟩

end Verif.Props
