import Verif.Lemmas.Policy

namespace Verif
open Spec Policy Nacaddr

theorem wf_sort {l : List Net} (h : ∀ n ∈ l, WF n) : ∀ n ∈ sortAddrList l, WF n :=
  fun n hn => h n (mem_isort.1 hn)

theorem cleanupField_ok {o ab : Bool} {l c r : List Net} (hl : ∀ n ∈ l, WF n)
    (h : cleanupField o ab l c = .ok r) : (∀ n ∈ r, WF n) ∧ SameDen r l := by
  unfold cleanupField cleanup at h
  split at h
  · cases h; exact ⟨hl, .refl _⟩
  · split at h
    · cases h; exact ⟨wf_sort hl, den_perm (isort_perm _ _)⟩
    · split at h
      · cases h
        obtain ⟨h1, h2, _⟩ := collapsePreserveTokens_spec l hl
        exact ⟨h1, h2⟩
      · exact collapseAddrList_spec l c r hl h

theorem cleanupField_total (o ab : Bool) (l c : List Net)
    (h : o = false ∨ ab = true ∨ c = [] ∨ ∀ a ∈ l, ∀ b ∈ l, a.ver = b.ver) :
    ∃ r, cleanupField o ab l c = .ok r := by
  unfold cleanupField cleanup
  split
  · exact ⟨_, rfl⟩
  next hl =>
    split
    · exact ⟨_, rfl⟩
    next ho =>
      split
      · exact ⟨_, rfl⟩
      next hab =>
        rcases h with h | h | h | h
        · rw [h] at ho; simp at ho
        · exact absurd h hab
        · subst h; exact ⟨_, collapse_eq l⟩
        · cases l with
          | nil => simp at hl
          | cons a as =>
            exact collapseAddrList_total _ c a.ver (fun n hn => h n hn a (List.mem_cons_self ..))

/-- a list of well-formed networks is empty iff it denotes nothing -/
theorem nil_iff_den {l m : List Net} (h : SameDen l m) : l = [] ↔ m = [] := by
  have key : ∀ {l m : List Net}, SameDen l m → l = [] → m = [] := by
    intro l m h hl
    refine Classical.byContradiction fun hm => ?_
    obtain ⟨n, ns, hn⟩ := List.exists_cons_of_ne_nil hm
    have := (h n.ver n.addr).2 ⟨n, by rw [hn]; exact List.mem_cons_self .., mem_self⟩
    rw [hl] at this; simp at this
  exact ⟨key h, key h.symm⟩

theorem addrMatch_congr {i i' e e' : List Net} (h1 : SameDen i i') (h2 : SameDen e e') (v x) :
    AddrMatch i e v x ↔ AddrMatch i' e' v x := by
  unfold AddrMatch
  rw [nil_iff_den h1, h1 v x, h2 v x]

theorem portField {l : List PortRange} (hw : PWF l) :
    ((if l.isEmpty then l else collapsePortList l) = [] ↔ l = []) ∧
    SamePorts (if l.isEmpty then l else collapsePortList l) l := by
  split
  next h => exact ⟨Iff.rfl, fun _ => Iff.rfl⟩
  next h =>
    refine ⟨⟨fun hh => ?_, fun hh => ?_⟩, (collapsePortList_spec l hw).2.1⟩
    · exact absurd hh (collapsePortList_ne_nil hw (by simpa using h))
    · rw [hh] at h; simp at h

/-- shape of a successful cleanup -/
theorem addressCleanup_shape {t t' : Term} {o ab : Bool} (h : addressCleanup t o ab = .ok t') :
    ∃ a sa se da de, cleanupField o ab t.address [] = .ok a ∧
      cleanupField o ab t.sourceAddress t.sourceAddressExclude = .ok sa ∧
      cleanupField o ab t.sourceAddressExclude sa = .ok se ∧
      cleanupField o ab t.destinationAddress t.destinationAddressExclude = .ok da ∧
      cleanupField o ab t.destinationAddressExclude da = .ok de ∧
      t' = { t with
        address := a, sourceAddress := sa, sourceAddressExclude := se,
        destinationAddress := da, destinationAddressExclude := de,
        port := if t.port.isEmpty then t.port else collapsePortList t.port,
        sourcePort := if t.sourcePort.isEmpty then t.sourcePort else collapsePortList t.sourcePort,
        destinationPort :=
          if t.destinationPort.isEmpty then t.destinationPort else collapsePortList t.destinationPort } := by
  unfold addressCleanup at h
  cases h1 : cleanupField o ab t.address [] with
  | error e => rw [h1] at h; cases h
  | ok a =>
    cases h2 : cleanupField o ab t.sourceAddress t.sourceAddressExclude with
    | error e => rw [h1, h2] at h; cases h
    | ok sa =>
      cases h3 : cleanupField o ab t.sourceAddressExclude sa with
      | error e => simp only [h1, h2, h3, bind, Except.bind] at h; cases h
      | ok se =>
        cases h4 : cleanupField o ab t.destinationAddress t.destinationAddressExclude with
        | error e => simp only [h1, h2, h3, h4, bind, Except.bind] at h; cases h
        | ok da =>
          cases h5 : cleanupField o ab t.destinationAddressExclude da with
          | error e => simp only [h1, h2, h3, h4, h5, bind, Except.bind] at h; cases h
          | ok de =>
            simp only [h1, h2, h3, h4, h5, bind, Except.bind] at h
            cases h
            exact ⟨a, sa, se, da, de, rfl, rfl, h3, rfl, h5, rfl⟩

theorem addressCleanup_total (t : Term) (o ab : Bool)
    (h : o = false ∨ ab = true ∨
      ((∀ a ∈ t.sourceAddress, ∀ b ∈ t.sourceAddress, a.ver = b.ver) ∧
       (∀ a ∈ t.sourceAddressExclude, ∀ b ∈ t.sourceAddressExclude, a.ver = b.ver) ∧
       (∀ a ∈ t.destinationAddress, ∀ b ∈ t.destinationAddress, a.ver = b.ver) ∧
       (∀ a ∈ t.destinationAddressExclude, ∀ b ∈ t.destinationAddressExclude, a.ver = b.ver))) :
    ∃ t', addressCleanup t o ab = .ok t' := by
  obtain ⟨a, h1⟩ := cleanupField_total o ab t.address [] (.inr (.inr (.inl rfl)))
  obtain ⟨sa, h2⟩ := cleanupField_total o ab t.sourceAddress t.sourceAddressExclude (by
    rcases h with h | h | h
    · exact .inl h
    · exact .inr (.inl h)
    · exact .inr (.inr (.inr h.1)))
  obtain ⟨se, h3⟩ := cleanupField_total o ab t.sourceAddressExclude sa (by
    rcases h with h | h | h
    · exact .inl h
    · exact .inr (.inl h)
    · exact .inr (.inr (.inr h.2.1)))
  obtain ⟨da, h4⟩ := cleanupField_total o ab t.destinationAddress t.destinationAddressExclude (by
    rcases h with h | h | h
    · exact .inl h
    · exact .inr (.inl h)
    · exact .inr (.inr (.inr h.2.2.1)))
  obtain ⟨de, h5⟩ := cleanupField_total o ab t.destinationAddressExclude da (by
    rcases h with h | h | h
    · exact .inl h
    · exact .inr (.inl h)
    · exact .inr (.inr (.inr h.2.2.2)))
  unfold addressCleanup
  simp only [h1, h2, h3, h4, h5, bind, Except.bind]
  exact ⟨_, rfl⟩

theorem addressCleanup_matches {t t' : Term} {o ab : Bool} (w : AddrsWF t) (p1 : PWF t.port)
    (p2 : PWF t.sourcePort) (p3 : PWF t.destinationPort) (h : addressCleanup t o ab = .ok t') (p : Packet) :
    Matches t' p ↔ Matches t p := by
  obtain ⟨a, sa, se, da, de, h1, h2, h3, h4, h5, rfl⟩ := addressCleanup_shape h
  have s1 := (cleanupField_ok w.address h1).2
  have s2 := (cleanupField_ok w.source h2).2
  have s3 := (cleanupField_ok w.sourceExclude h3).2
  have s4 := (cleanupField_ok w.destination h4).2
  have s5 := (cleanupField_ok w.destinationExclude h5).2
  obtain ⟨q1, q2⟩ := portField p1
  obtain ⟨q3, q4⟩ := portField p2
  obtain ⟨q5, q6⟩ := portField p3
  unfold Matches MatchAddrs MatchPorts PortMatch
  simp only
  rw [addrMatch_congr s2 s3, addrMatch_congr s4 s5, addrMatch_congr s1 (.refl _), addrMatch_congr s1 (.refl _),
    nil_iff_den s1, q1, q2, q2, q3, q4, q5, q6]
  exact Iff.rfl

/-! ### SanityCheck -/

/-- `SanityCheck` returns iff all four parts do. -/
theorem sanityCheck_ok {t : Term} : sanityCheck t = .ok () ↔
    sanityAction t = .ok () ∧ sanityEther t = .ok () ∧ sanityIcmpCode t = .ok () ∧ sanityRest t = .ok () := by
  unfold sanityCheck
  cases sanityAction t <;> cases sanityEther t <;> cases sanityIcmpCode t <;> cases sanityRest t <;>
    simp [bind, Except.bind]

theorem sanityCheck_error {t : Term} {e : Err} (h : sanityCheck t = .error e) :
    sanityAction t = .error e ∨ sanityEther t = .error e ∨ sanityIcmpCode t = .error e ∨
      sanityRest t = .error e := by
  unfold sanityCheck at h
  cases h1 : sanityAction t with
  | error e' => simp only [h1, bind, Except.bind] at h; exact .inl h
  | ok _ =>
    cases h2 : sanityEther t with
    | error e' => simp only [h1, h2, bind, Except.bind] at h; exact .inr (.inl h)
    | ok _ =>
      cases h3 : sanityIcmpCode t with
      | error e' => simp only [h1, h2, h3, bind, Except.bind] at h; exact .inr (.inr (.inl h))
      | ok _ => simp only [h1, h2, h3, bind, Except.bind] at h; exact .inr (.inr (.inr h))

end Verif
