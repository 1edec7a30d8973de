import Verif.Spec.Translate
import Verif.Lemmas.NamingMore
import Verif.Lemmas.Cleanup
import Verif.Spec.List

namespace Verif
open Spec Policy Naming PyStr Port

theorem bind_ok {α β : Type} {x : Except Err α} {f : α → Except Err β} {b : β}
    (h : (x >>= f) = .ok b) : ∃ a, x = .ok a ∧ f a = .ok b := by
  cases x with
  | error e => cases h
  | ok a => exact ⟨a, rfl, h⟩

theorem concatM_ok {α β : Type} {f : α → Except Err (List β)} : ∀ {l : List α} {r : List β},
    concatM f l = .ok r → (∀ a ∈ l, ∃ x, f a = .ok x) ∧ ∀ b, b ∈ r ↔ ∃ a ∈ l, ∃ x, f a = .ok x ∧ b ∈ x
  | [], r, h => by
    rw [concatM] at h; cases h
    exact ⟨fun a ha => (by cases ha), fun b => (by simp)⟩
  | a :: as, r, h => by
    rw [concatM] at h
    obtain ⟨x, h1, h2⟩ := bind_ok h
    obtain ⟨y, h3, h4⟩ := bind_ok h2
    cases h4
    obtain ⟨i1, i2⟩ := concatM_ok h3
    constructor
    · intro c hc
      rcases List.mem_cons.1 hc with rfl | hc
      · exact ⟨x, h1⟩
      · exact i1 c hc
    · intro b
      rw [List.mem_append, i2]
      constructor
      · rintro (hb | ⟨c, hc, hb⟩)
        · exact ⟨a, List.mem_cons_self .., x, h1, hb⟩
        · exact ⟨c, List.mem_cons_of_mem _ hc, hb⟩
      · rintro ⟨c, hc, x', hx', hb⟩
        rcases List.mem_cons.1 hc with rfl | hc
        · rw [h1] at hx'; cases hx'; exact .inl hb
        · exact .inr ⟨c, hc, x', hx', hb⟩

theorem concatM_total {α β : Type} {f : α → Except Err (List β)} : ∀ {l : List α},
    (∀ a ∈ l, ∃ x, f a = .ok x) → ∃ r, concatM f l = .ok r
  | [], _ => ⟨[], rfl⟩
  | a :: as, h => by
    obtain ⟨x, hx⟩ := h a (List.mem_cons_self ..)
    obtain ⟨y, hy⟩ := concatM_total (fun b hb => h b (List.mem_cons_of_mem _ hb))
    exact ⟨x ++ y, by rw [concatM, hx, hy]; rfl⟩

theorem listM_ok {α β : Type} {f : α → Except Err β} : ∀ {l : List α} {r : List β},
    listM f l = .ok r → All₂ (fun a b => f a = .ok b) l r
  | [], r, h => by rw [listM] at h; cases h; exact .nil
  | a :: as, r, h => by
    rw [listM] at h
    obtain ⟨x, h1, h2⟩ := bind_ok h
    obtain ⟨y, h3, h4⟩ := bind_ok h2
    cases h4
    exact .cons h1 (listM_ok h3)

theorem listM_total {α β : Type} {f : α → Except Err β} : ∀ {l : List α},
    (∀ a ∈ l, ∃ x, f a = .ok x) → ∃ r, listM f l = .ok r
  | [], _ => ⟨[], rfl⟩
  | a :: as, h => by
    obtain ⟨x, hx⟩ := h a (List.mem_cons_self ..)
    obtain ⟨y, hy⟩ := listM_total (fun b hb => h b (List.mem_cons_of_mem _ hb))
    exact ⟨x :: y, by rw [listM, hx, hy]; rfl⟩

theorem listM_mem {α β : Type} {f : α → Except Err β} {l : List α} {r : List β} (h : listM f l = .ok r) (b : β) :
    (b ∈ r ↔ ∃ a ∈ l, f a = .ok b) := by
  have h' := listM_ok h
  clear h
  induction h' with
  | nil => simp
  | cons h1 _ ih =>
    refine List.mem_cons.trans ((or_congr Iff.rfl ih).trans ?_)
    constructor
    · rintro (rfl | ⟨a, ha, hb⟩)
      · exact ⟨_, List.mem_cons_self .., h1⟩
      · exact ⟨a, List.mem_cons_of_mem _ ha, hb⟩
    · rintro ⟨a, ha, hb⟩
      rcases List.mem_cons.1 ha with rfl | ha
      · rw [h1] at hb; cases hb; exact .inl rfl
      · exact .inr ⟨a, ha, hb⟩

theorem block_mem {a b : Net} (h : block a = block b) {v : Ver} {x : Nat} : Mem a v x ↔ Mem b v x := by
  unfold block at h
  simp only [Prod.mk.injEq] at h
  unfold Mem
  rw [h.1, h.2.1, h.2.2]

theorem block_wf {a b : Net} (h : block a = block b) (hb : WF b) : WF a := by
  unfold block at h
  simp only [Prod.mk.injEq] at h
  obtain ⟨h1, h2, h3⟩ := h
  constructor
  · rw [h1, h3]; exact hb.1
  · rw [h1, h2, h3]; exact hb.2
  · rw [h1, h2, h3]; exact hb.3

theorem getNet_exact {nets : Defs} {ip : IpParser} (hi : ItemsOk nets) (hip : DotOrColon ip) {t : Str}
    (ht : Word t) {l : List Net} (h : getNet nets ip t = .ok l) : NetsExact nets ip t l :=
  ((getNetF_correct hi hip _ t ht).1 l h).2

theorem resolveNets_ok {e : Env} (g : GoodEnv e) {toks : List Str} (hw : ∀ t ∈ toks, Word t) {l : List Net}
    (h : resolveNets e toks = .ok l) :
    (∀ n ∈ l, WF n) ∧ (∀ v x, Den l v x ↔ TokAddr e toks v x) ∧
      (l = [] ↔ ¬ ∃ t ∈ toks, ∃ a s, NetOf e.nets e.ip t a s) := by
  obtain ⟨h1, h2⟩ := concatM_ok h
  have hex : ∀ t ∈ toks, ∀ ns, getNet e.nets e.ip t = .ok ns → NetsExact e.nets e.ip t ns :=
    fun t ht ns hns => getNet_exact g.nets g.dots (hw t ht) hns
  refine ⟨?_, ?_, ?_⟩
  · intro n hn
    obtain ⟨t, ht, ns, hns, hm⟩ := (h2 n).1 hn
    obtain ⟨a, s, ⟨_, v, _, ha⟩, hb, _⟩ := (hex t ht ns hns).1 n hm
    exact block_wf hb (g.wf v a ha)
  · intro v x
    constructor
    · rintro ⟨n, hn, hx⟩
      obtain ⟨t, ht, ns, hns, hm⟩ := (h2 n).1 hn
      obtain ⟨a, s, ho, hb, _⟩ := (hex t ht ns hns).1 n hm
      exact ⟨t, ht, a, s, ho, (block_mem hb).1 hx⟩
    · rintro ⟨t, ht, a, s, ho, hx⟩
      obtain ⟨ns, hns⟩ := h1 t ht
      obtain ⟨n, hm, hb, _⟩ := (hex t ht ns hns).2 a s ho
      exact ⟨n, (h2 n).2 ⟨t, ht, ns, hns, hm⟩, (block_mem hb).2 hx⟩
  · constructor
    · rintro rfl ⟨t, ht, a, s, ho⟩
      obtain ⟨ns, hns⟩ := h1 t ht
      obtain ⟨n, hm, _⟩ := (hex t ht ns hns).2 a s ho
      have := (h2 n).2 ⟨t, ht, ns, hns, hm⟩
      cases this
    · intro hno
      cases l with
      | nil => rfl
      | cons n l =>
        obtain ⟨t, ht, ns, hns, hm⟩ := (h2 n).1 (List.mem_cons_self ..)
        obtain ⟨a, s, ho, _⟩ := (hex t ht ns hns).1 n hm
        exact absurd ⟨t, ht, a, s, ho⟩ hno

/-- the port text of a value parses to its range -/
theorem parseRange_value {v p w : Str} {lo hi : Nat} {w' : Str} (hv : PortValue v lo hi w') (hp : ProtoValue v p w) :
    w = w' ∧ parseRange p = .ok (lo, hi) := by
  obtain ⟨hw', q, e, hq⟩ := hv
  obtain ⟨hps, hws, r, e', hr⟩ := hp
  subst e
  have hqs : '/' ∉ q := portValue_slash hq
  obtain ⟨rfl, h2⟩ : q = p ∧ w' = w ++ r := splitSlash e' hqs hps
  have hr' : r = [] := by
    rcases hr with h | ⟨r', rfl⟩
    · exact h
    · exact absurd (by rw [h2]; simp) hw'
  subst hr'
  rw [List.append_nil] at h2
  refine ⟨h2.symm, ?_⟩
  rcases hq with ⟨hd, rfl⟩ | ⟨a, b, rfl, h1, h3⟩
  · unfold parseRange
    rw [splitOn_none (dec_noChar hd not_digit_dash)]
    simp only [portInt, pyInt_dec hd, bind, Except.bind, Int.toNat_natCast]
  · unfold parseRange
    rw [splitOn_app (dec_noChar h1 not_digit_dash), splitOn_none (dec_noChar h3 not_digit_dash)]
    simp only [portInt, pyInt_dec h1, pyInt_dec h3, bind, Except.bind, Int.toNat_natCast]

theorem portValue_proto {v w : Str} {lo hi : Nat} (hv : PortValue v lo hi w) : ∃ p, ProtoValue v p w := by
  obtain ⟨hw, q, e, hq⟩ := hv
  exact ⟨q, portValue_slash hq, hw, [], by rw [e, List.append_nil], .inl rfl⟩

/-- an outcome of `GetServiceByProto` is exact -/
theorem getServiceByProto_ok {svcs : Defs} (hi : ItemsOk svcs) {t : Str} (ht : Word t) {proto : Str} {l : List Str}
    (h : getServiceByProto svcs t proto = .ok l) (p : Str) :
    p ∈ l ↔ ∃ v w, SvcOf svcs t v ∧ ProtoValue v p w ∧ w.map Char.toUpper = proto.map Char.toUpper := by
  unfold getServiceByProto at h
  rw [headTok_word ht] at h
  dsimp only at h
  split at h
  · cases h
  · obtain ⟨vs, h1, h2⟩ := bind_ok h
    cases h2
    have hx := ((getServiceF_correct hi _ t ht).1 vs h1).2.2
    rw [mem_sortedSet, List.mem_map]
    constructor
    · rintro ⟨v, hv, rfl⟩
      rw [List.mem_filter, Bool.and_eq_true, List.contains_iff_mem, beq_iff_eq] at hv
      exact ⟨v, _, (hx v).1 hv.1, splitOn_proto.1 ⟨hv.2.1, rfl, rfl⟩, hv.2.2⟩
    · rintro ⟨v, w, hv, hp, hw⟩
      obtain ⟨h1, h2, h3⟩ := splitOn_proto.2 hp
      refine ⟨v, List.mem_filter.2 ⟨(hx v).2 hv, ?_⟩, h2⟩
      rw [Bool.and_eq_true, List.contains_iff_mem, beq_iff_eq, h3]
      exact ⟨h1, hw⟩

theorem svcOf_value {e : Env} (g : GoodEnv e) {t v : Str} (h : SvcOf e.svcs t v) :
    ∃ lo hi w, PortValue v lo hi w ∧ lo ≤ hi := by
  obtain ⟨s, _, hv, hs⟩ := h
  obtain ⟨lo, hi, w, hp⟩ := g.values s v hv hs
  exact ⟨lo, hi, w, hp, g.ordered s v lo hi w hv hp⟩

theorem translateOne_ok {e : Env} (g : GoodEnv e) {proto : String} {t : Str} (ht : Word t) {l : List PortRange}
    (h : translateOne e proto t = .ok l) (r : PortRange) :
    r ∈ l ↔ ∃ v w, SvcOf e.svcs t v ∧ PortValue v r.1 r.2 w ∧ w.map Char.toUpper = proto.toList.map Char.toUpper := by
  unfold translateOne at h
  obtain ⟨ps, h1, h2⟩ := bind_ok h
  have hx := getServiceByProto_ok g.svcs ht h1
  rw [listM_mem h2]
  constructor
  · rintro ⟨p, hp, hr⟩
    obtain ⟨v, w, hs, hpv, hw⟩ := (hx p).1 hp
    obtain ⟨lo, hi, w', hv, _⟩ := svcOf_value g hs
    obtain ⟨rfl, h3⟩ := parseRange_value hv hpv
    rw [h3] at hr; cases hr
    exact ⟨v, w, hs, hv, hw⟩
  · rintro ⟨v, w, hs, hv, hw⟩
    obtain ⟨p, hp⟩ := portValue_proto hv
    exact ⟨p, (hx p).2 ⟨v, w, hs, hp, hw⟩, (parseRange_value hv hp).2⟩

theorem translateOne_total {e : Env} (g : GoodEnv e) {proto : String} {t : Str} (ht : Word t) {l : List Str}
    (h : getServiceByProto e.svcs t proto.toList = .ok l) : ∃ r, translateOne e proto t = .ok r := by
  unfold translateOne
  rw [h]
  refine listM_total fun p hp => ?_
  obtain ⟨v, w, hs, hpv, hw⟩ := (getServiceByProto_ok g.svcs ht h p).1 hp
  obtain ⟨lo, hi, w', hv, _⟩ := svcOf_value g hs
  exact ⟨_, (parseRange_value hv hpv).2⟩

theorem translatePorts_ok {e : Env} (g : GoodEnv e) {ports : List Str} (hw : ∀ t ∈ ports, Word t)
    {protos : List String} {l : List PortRange} (h : translatePorts e ports protos = .ok l) :
    PWF l ∧ ∀ x, PMem l x ↔ SvcPort e ports protos x := by
  obtain ⟨_, h2⟩ := concatM_ok h
  have key : ∀ r, r ∈ l ↔ ∃ pr ∈ protos, ∃ t ∈ ports, ∃ v w, SvcOf e.svcs t v ∧ PortValue v r.1 r.2 w ∧
      w.map Char.toUpper = pr.toList.map Char.toUpper := by
    intro r
    rw [h2]
    constructor
    · rintro ⟨pr, hpr, x, hx, hr⟩
      obtain ⟨t, ht, y, hy, hr⟩ := ((concatM_ok hx).2 r).1 hr
      exact ⟨pr, hpr, t, ht, (translateOne_ok g (hw t ht) hy r).1 hr⟩
    · rintro ⟨pr, hpr, t, ht, hh⟩
      obtain ⟨x, hx⟩ := (concatM_ok h).1 pr hpr
      obtain ⟨y, hy⟩ := (concatM_ok hx).1 t ht
      exact ⟨pr, hpr, x, hx, ((concatM_ok hx).2 r).2 ⟨t, ht, y, hy, (translateOne_ok g (hw t ht) hy r).2 hh⟩⟩
  constructor
  · intro r hr
    obtain ⟨_, _, t, _, v, w, hs, hv, _⟩ := (key r).1 hr
    obtain ⟨lo, hi, w', hv', hle⟩ := svcOf_value g hs
    obtain ⟨h1, h2, _⟩ := portValue_unique hv hv'
    rw [h1, h2]; exact hle
  · intro x
    constructor
    · rintro ⟨r, hr, h1, h2⟩
      obtain ⟨pr, hpr, t, ht, v, w, hs, hv, hw⟩ := (key r).1 hr
      exact ⟨t, ht, pr, hpr, v, w, hs, ⟨r.1, r.2, hv, h1, h2⟩, hw⟩
    · rintro ⟨t, ht, pr, hpr, v, w, hs, ⟨lo, hi, hv, h1, h2⟩, hw⟩
      exact ⟨(lo, hi), (key (lo, hi)).2 ⟨pr, hpr, t, ht, v, w, hs, hv, hw⟩, h1, h2⟩

theorem translateField_ok {e : Env} (g : GoodEnv e) {ports : List Str} (hw : ∀ t ∈ ports, Word t)
    {protos : List String} {l : List PortRange} (h : translateField e ports protos = .ok l) :
    PWF l ∧ (∀ x, PMem l x ↔ SvcPort e ports protos x) ∧ (l = [] ↔ ports = []) := by
  unfold translateField at h
  split at h
  next hp =>
    cases h
    have : ports = [] := by simpa using hp
    subst this
    refine ⟨fun r hr => (by cases hr), fun x => ?_, by simp⟩
    constructor
    · rintro ⟨r, hr, _⟩; cases hr
    · rintro ⟨t, ht, _⟩; cases ht
  next hp =>
    split at h
    · cases h
    · cases h
    next l' hne heq =>
      cases h
      obtain ⟨h1, h2⟩ := translatePorts_ok g hw heq
      refine ⟨h1, h2, ⟨fun hl => absurd hl hne, fun hl => ?_⟩⟩
      subst hl; simp at hp

/-- shape of a resolved term -/
theorem resolveTerm_ok {e : Env} {r : RawTerm} {t : Term} (h : resolveTerm e r = .ok t) :
    ∃ a ae s se d de, resolveNets e r.address = .ok a ∧ resolveNets e r.addressExclude = .ok ae ∧
      resolveNets e r.sourceAddress = .ok s ∧ resolveNets e r.sourceAddressExclude = .ok se ∧
      resolveNets e r.destinationAddress = .ok d ∧ resolveNets e r.destinationAddressExclude = .ok de ∧
      t = { r.rest with
        address := a, addressExclude := ae, sourceAddress := s, sourceAddressExclude := se,
        destinationAddress := d, destinationAddressExclude := de } := by
  unfold resolveTerm at h
  obtain ⟨a, h1, h⟩ := bind_ok h
  obtain ⟨ae, h2, h⟩ := bind_ok h
  obtain ⟨s, h3, h⟩ := bind_ok h
  obtain ⟨se, h4, h⟩ := bind_ok h
  obtain ⟨d, h5, h⟩ := bind_ok h
  obtain ⟨de, h6, h⟩ := bind_ok h
  cases h
  exact ⟨a, ae, s, se, d, de, h1, h2, h3, h4, h5, h6, rfl⟩

/-- shape of a translated term -/
theorem translateTerm_ok {e : Env} {ab : Bool} {r : RawTerm} {t' : Term} (h : translateTerm e ab r = .ok t') :
    ∃ t p sp dp, resolveTerm e r = .ok t ∧ translateField e r.port t.protocol = .ok p ∧
      translateField e r.sourcePort t.protocol = .ok sp ∧ translateField e r.destinationPort t.protocol = .ok dp ∧
      addressCleanup { t with port := p, sourcePort := sp, destinationPort := dp } e.optimize ab = .ok t' ∧
      sanityCheck t' = .ok () := by
  unfold translateTerm at h
  obtain ⟨t, h1, h⟩ := bind_ok h
  obtain ⟨p, h2, h⟩ := bind_ok h
  obtain ⟨sp, h3, h⟩ := bind_ok h
  obtain ⟨dp, h4, h⟩ := bind_ok h
  obtain ⟨t2, h5, h⟩ := bind_ok h
  obtain ⟨u, h6, h⟩ := bind_ok h
  cases h
  exact ⟨t, p, sp, dp, h1, h2, h3, h4, h5, h6⟩

end Verif
