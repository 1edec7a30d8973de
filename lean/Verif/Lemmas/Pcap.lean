import Verif.Spec.Pcap
import Verif.Lemmas.Basic

/-!
Reading of the expressions built by the model of capirca/lib/pcap.py.
-/

namespace Verif
namespace Pcap
open Verif.Spec Verif.Spec.Bpf

/-- What a hole makes of a condition. -/
def Meaning (loc : Ver → Nat → Prop) (p : Packet) (h : Hole) (P : Prop) : Prop :=
  let P := if h.neg then ¬ P else P
  match h.left with
  | none => P
  | some (true, a) => a.Holds loc p ∧ P
  | some (false, a) => a.Holds loc p ∨ P

theorem fill_holds {loc : Ver → Nat → Prop} {p : Packet} (h : Hole) (e : Expr) :
    (h.fill e).Holds loc p ↔ Meaning loc p h (e.Holds loc p) := by
  obtain ⟨l, n⟩ := h
  unfold Hole.fill Meaning
  cases n <;> rcases l with _ | ⟨_ | _, a⟩ <;> exact Iff.rfl

theorem meaning_congr {loc : Ver → Nat → Prop} {p : Packet} (h : Hole) {P Q : Prop} (e : P ↔ Q) :
    Meaning loc p h P ↔ Meaning loc p h Q := by rw [e]

/-- The tokens are an operand with the meaning. -/
def Factor (loc : Ver → Nat → Prop) (p : Packet) (ts : List Tok) (P : Prop) : Prop :=
  ∀ s h, ∃ x, run (.want s h) ts = some (.have s x) ∧ (x.Holds loc p ↔ Meaning loc p h P)

theorem run_append (s : State) (a b : List Tok) : run s (a ++ b) = (run s a).bind fun s => run s b := by
  induction a generalizing s with
  | nil => rfl
  | cons t ts ih =>
    rw [List.cons_append, run, run]
    cases step s t with
    | none => rfl
    | some s' => exact ih s'

variable {loc : Ver → Nat → Prop} {p : Packet}

theorem Factor.congr {ts : List Tok} {P Q : Prop} (h : Factor loc p ts P) (e : P ↔ Q) : Factor loc p ts Q := by
  rw [← propext e]; exact h

theorem factor_prim (q : Prim) : Factor loc p [.prim q] (PrimHolds loc p q) :=
  fun _ h => ⟨h.fill (.prim q), rfl, fill_holds h _⟩

theorem factor_not {ts : List Tok} {P : Prop} (h : Factor loc p ts P) : Factor loc p (.not :: ts) (¬ P) := by
  intro s k
  obtain ⟨x, h1, h2⟩ := h s { k with neg := !k.neg }
  refine ⟨x, h1, h2.trans ?_⟩
  obtain ⟨l, n⟩ := k
  unfold Meaning
  have : (if (!n) = true then ¬ P else P) ↔ (if n = true then ¬ ¬ P else ¬ P) := by
    cases n <;> simp
  dsimp only
  simp only [this]

theorem factor_ne {ts : List Tok} {P : Prop} (h : Factor loc p ts P) : ts ≠ [] := by
  rintro rfl
  obtain ⟨x, h1, _⟩ := h [] {}
  cases h1

/-- The tokens of a level of parentheses. -/
def Chain (loc : Ver → Nat → Prop) (p : Packet) (ts : List Tok) (P : Prop) : Prop :=
  ∀ s, ∃ x, run (.want s {}) ts = some (.have s x) ∧ (x.Holds loc p ↔ P)

theorem factor_chain {ts : List Tok} {P : Prop} (h : Factor loc p ts P) : Chain loc p ts P := by
  intro s
  obtain ⟨x, h1, h2⟩ := h s {}
  exact ⟨x, h1, h2⟩

theorem chain_paren {ts : List Tok} {P : Prop} (h : Chain loc p ts P) : Factor loc p (.lp :: (ts ++ [.rp])) P := by
  intro s k
  obtain ⟨x, h1, h2⟩ := h (k :: s)
  refine ⟨k.fill x, ?_, (fill_holds k x).trans (meaning_congr k h2)⟩
  show run (.want (k :: s) {}) (ts ++ [.rp]) = _
  rw [run_append, h1]
  rfl

theorem chain_and {a b : List Tok} {P Q : Prop} (h : Chain loc p a P) (k : Factor loc p b Q) :
    Chain loc p (a ++ .and :: b) (P ∧ Q) := by
  intro s
  obtain ⟨x, h1, h2⟩ := h s
  obtain ⟨y, h3, h4⟩ := k s { left := some (true, x) }
  refine ⟨y, ?_, h4.trans ?_⟩
  · rw [run_append, h1]; exact h3
  · exact and_congr h2 Iff.rfl

theorem chain_or {a b : List Tok} {P Q : Prop} (h : Chain loc p a P) (k : Factor loc p b Q) :
    Chain loc p (a ++ .or :: b) (P ∨ Q) := by
  intro s
  obtain ⟨x, h1, h2⟩ := h s
  obtain ⟨y, h3, h4⟩ := k s { left := some (false, x) }
  refine ⟨y, ?_, h4.trans ?_⟩
  · rw [run_append, h1]; exact h3
  · exact or_congr h2 Iff.rfl

theorem Chain.congr {ts : List Tok} {P Q : Prop} (h : Chain loc p ts P) (e : P ↔ Q) : Chain loc p ts Q := by
  rw [← propext e]; exact h

theorem sepBy_cons (op x : List Tok) (r : List (List Tok)) : sepBy op (x :: r) = x ++ r.flatMap fun y => op ++ y := by
  induction r generalizing x with
  | nil => simp [sepBy]
  | cons y r ih =>
    rw [sepBy, ih y]
    simp

theorem chain_ands {ys : List (List Tok × Prop)} (h : ∀ y ∈ ys, Factor loc p y.1 y.2) {ts : List Tok} {P : Prop}
    (h0 : Chain loc p ts P) : Chain loc p (ts ++ (ys.map Prod.fst).flatMap fun y => [Tok.and] ++ y) (P ∧ ∀ y ∈ ys, y.2) := by
  induction ys generalizing ts P with
  | nil => simpa using h0
  | cons y ys ih =>
    have := ih (fun z hz => h z (List.mem_cons_of_mem _ hz)) (chain_and h0 (h y (.head _)))
    simp only [List.map_cons, List.flatMap_cons, List.mem_cons, forall_eq_or_imp, List.append_assoc, List.cons_append,
      List.nil_append] at this ⊢
    exact this.congr and_assoc

theorem chain_ors {ys : List (List Tok × Prop)} (h : ∀ y ∈ ys, Factor loc p y.1 y.2) {ts : List Tok} {P : Prop}
    (h0 : Chain loc p ts P) : Chain loc p (ts ++ (ys.map Prod.fst).flatMap fun y => [Tok.or] ++ y) (P ∨ ∃ y ∈ ys, y.2) := by
  induction ys generalizing ts P with
  | nil => simpa using h0
  | cons y ys ih =>
    have := ih (fun z hz => h z (List.mem_cons_of_mem _ hz)) (chain_or h0 (h y (.head _)))
    simp only [List.map_cons, List.flatMap_cons, List.mem_cons, exists_eq_or_imp, List.append_assoc, List.cons_append,
      List.nil_append] at this ⊢
    exact this.congr or_assoc

theorem filter_nonempty {l : List (List Tok)} (h : ∀ x ∈ l, x ≠ []) : (l.filter fun x => !x.isEmpty) = l :=
  List.filter_eq_self.2 fun x hx => by simpa using h x hx

/-- An operand that may be missing: then there is no condition. -/
def Cond (loc : Ver → Nat → Prop) (p : Packet) (ts : List Tok) (P : Prop) : Prop :=
  (ts = [] ∧ P) ∨ Factor loc p ts P

theorem Cond.congr {ts : List Tok} {P Q : Prop} (h : Cond loc p ts P) (e : P ↔ Q) : Cond loc p ts Q := by
  rw [← propext e]; exact h

theorem cond_nil : Cond loc p [] True := .inl ⟨rfl, trivial⟩

/-- Any of the operands, or no condition if there are none. -/
theorem join_or {ys : List (List Tok × Prop)} (h : ∀ y ∈ ys, Factor loc p y.1 y.2) :
    (ys ≠ [] → Factor loc p (join [.or] (ys.map Prod.fst)) (∃ y ∈ ys, y.2)) ∧ (ys = [] → join [.or] (ys.map Prod.fst) = []) := by
  constructor
  · intro hne
    cases ys with
    | nil => exact absurd rfl hne
    | cons y ys =>
      have h1 := chain_ors (fun z hz => h z (List.mem_cons_of_mem _ hz)) (factor_chain (h y (.head _)))
      unfold join
      rw [filter_nonempty (by
        intro x hx
        obtain ⟨z, hz, rfl⟩ := List.mem_map.1 hx
        exact factor_ne (h z hz))]
      dsimp only
      rw [List.map_cons, if_neg (by simp), sepBy_cons]
      refine (chain_paren h1).congr ?_
      simp
  · rintro rfl; rfl

theorem join_or_map {α : Type} {l : List α} {f : α → List Tok} {P : α → Prop} (h : ∀ a ∈ l, Factor loc p (f a) (P a)) :
    Cond loc p (join [.or] (l.map f)) (l = [] ∨ ∃ a ∈ l, P a) := by
  have := join_or (ys := l.map fun a => (f a, P a)) (loc := loc) (p := p) (by
    intro y hy
    obtain ⟨a, ha, rfl⟩ := List.mem_map.1 hy
    exact h a ha)
  rw [List.map_map] at this
  by_cases hl : l = []
  · subst hl; exact .inl ⟨rfl, .inl rfl⟩
  · refine .inr ((this.1 (by simpa using hl)).congr ?_)
    constructor
    · rintro ⟨y, hy, hP⟩
      obtain ⟨a, ha, rfl⟩ := List.mem_map.1 hy
      exact .inr ⟨a, ha, hP⟩
    · rintro (h | ⟨a, ha, hP⟩)
      · exact absurd h hl
      · exact ⟨_, List.mem_map.2 ⟨a, ha, rfl⟩, hP⟩

/-- All of the conditions. -/
theorem join_and {ys : List (List Tok × Prop)} (h : ∀ y ∈ ys, Cond loc p y.1 y.2) :
    Cond loc p (join [.and] (ys.map Prod.fst)) (∀ y ∈ ys, y.2) := by
  have hf : ((ys.map Prod.fst).filter fun x => !x.isEmpty) = (ys.filter fun y => !y.1.isEmpty).map Prod.fst := by
    rw [List.filter_map]; rfl
  have hall : (∀ y ∈ ys, y.2) ↔ ∀ y ∈ ys.filter fun y => !y.1.isEmpty, y.2 := by
    constructor
    · intro k y hy; exact k y (List.mem_filter.1 hy).1
    · intro k y hy
      rcases h y hy with ⟨_, h⟩ | hh
      · exact h
      · exact k y (List.mem_filter.2 ⟨hy, by simpa using factor_ne hh⟩)
  have hF : ∀ y ∈ ys.filter fun y => !y.1.isEmpty, Factor loc p y.1 y.2 := by
    intro y hy
    obtain ⟨h1, h2⟩ := List.mem_filter.1 hy
    rcases h y h1 with ⟨h, _⟩ | hh
    · rw [h] at h2; cases h2
    · exact hh
  unfold join
  dsimp only
  rw [hf, hall]
  generalize (ys.filter fun y => !y.1.isEmpty) = zs at *
  cases zs with
  | nil => exact .inl ⟨rfl, by simp⟩
  | cons z zs =>
    rw [List.map_cons, if_neg (by simp), sepBy_cons]
    have h1 := chain_ands (fun y hy => hF y (List.mem_cons_of_mem _ hy)) (factor_chain (hF z (.head _)))
    refine .inr ((chain_paren h1).congr ?_)
    simp

/-- Two operands, the second negated. -/
theorem join_andnot {a b : List Tok} {P Q : Prop} (ha : Factor loc p a P) (hb : Factor loc p b Q) :
    Factor loc p (join [.and, .not] [a, b]) (P ∧ ¬ Q) := by
  unfold join
  rw [filter_nonempty (by
    intro x hx
    simp only [List.mem_cons, List.not_mem_nil, or_false] at hx
    rcases hx with rfl | rfl
    · exact factor_ne ha
    · exact factor_ne hb)]
  have := chain_paren (chain_and (factor_chain ha) (factor_not hb))
  simpa [sepBy] using this

theorem join_single {op a : List Tok} {P : Prop} (ha : Factor loc p a P) : Factor loc p (join op [a]) P := by
  unfold join
  rw [filter_nonempty (by
    intro x hx
    rw [List.mem_singleton.1 hx]; exact factor_ne ha)]
  exact chain_paren (factor_chain ha)

theorem join_skip (op : List Tok) (l : List (List Tok)) : join op ([] :: l) = join op l := rfl

theorem join_skip2 (op a : List Tok) : join op [a, []] = join op [a] := by
  unfold join
  cases a <;> rfl

/-- What is captured with the expression. -/
theorem selects_cond {ts : List Tok} {P : Prop} (h : Cond loc p ts P) : Selects loc ts p ↔ P := by
  unfold Selects
  rcases h with ⟨rfl, h⟩ | h
  · simp [h]
  · obtain ⟨x, h1, h2⟩ := h [] {}
    have : parse ts = some x := by
      unfold parse
      rw [h1]
    rw [this]
    simp only [factor_ne h, Option.some.injEq, exists_eq_left', false_or]
    exact h2

/-! ### the statements -/

/-- Types and one code: the code is tested after each type, without parentheses. -/
theorem chain_icmp (c : Nat) (x : Nat) (xs : List Nat) : Chain loc p (sepBy [.or] ((x :: xs).map fun x => icmpPart x (some c)))
    ((∃ y ∈ x :: xs, PrimHolds loc p (.icmpType y)) ∧ PrimHolds loc p (.icmpCode c)) := by
  rw [List.map_cons, sepBy_cons]
  have h0 : Chain loc p (icmpPart x (some c)) (PrimHolds loc p (.icmpType x) ∧ PrimHolds loc p (.icmpCode c)) :=
    chain_and (a := [.prim (.icmpType x)]) (factor_chain (factor_prim _)) (factor_prim _)
  have key : ∀ (xs : List Nat) {ts : List Tok} {P : Prop}, Chain loc p ts (P ∧ PrimHolds loc p (.icmpCode c)) →
      Chain loc p (ts ++ (xs.map fun x => icmpPart x (some c)).flatMap fun y => [Tok.or] ++ y)
        ((P ∨ ∃ y ∈ xs, PrimHolds loc p (.icmpType y)) ∧ PrimHolds loc p (.icmpCode c)) := by
    intro xs
    induction xs with
    | nil => intro ts P h; simpa using h
    | cons x xs ih =>
      intro ts P h
      have h1 := chain_and (chain_or h (factor_prim (.icmpType x))) (factor_prim (.icmpCode c))
      have h2 := ih (P := P ∨ PrimHolds loc p (.icmpType x)) (h1.congr (by
        constructor
        · rintro ⟨⟨a, b⟩ | a, c⟩
          · exact ⟨.inl a, c⟩
          · exact ⟨.inr a, c⟩
        · rintro ⟨a | a, c⟩
          · exact ⟨.inl ⟨a, c⟩, c⟩
          · exact ⟨.inr a, c⟩))
      simp only [List.map_cons, List.flatMap_cons, List.mem_cons, exists_eq_or_imp, icmpPart, List.append_assoc,
        List.cons_append, List.nil_append] at h2 ⊢
      exact h2.congr (and_congr or_assoc Iff.rfl)
  exact (key xs h0).congr (by simp)

theorem icmp_cond {types codes : List Nat} (h : codes.length ≤ 1) : Cond loc p (icmpStatement types codes)
    (types = [] ∨ ((∃ x ∈ types, PrimHolds loc p (.icmpType x)) ∧ ∀ c ∈ codes, PrimHolds loc p (.icmpCode c))) := by
  unfold icmpStatement
  cases types with
  | nil => exact .inl ⟨rfl, .inl rfl⟩
  | cons x xs =>
    rw [if_neg (by simp)]
    cases codes with
    | nil =>
      have := join_or_map (loc := loc) (p := p) (l := x :: xs) (f := fun x => icmpPart x none) (fun a _ => factor_prim (.icmpType a))
      simp only [codeStrings, List.isEmpty_nil, if_true, List.flatMap_cons, List.flatMap_nil, List.append_nil]
      exact this.congr (by simp)
    | cons c cs =>
      cases cs with
      | cons => simp at h
      | nil =>
        simp only [codeStrings, List.isEmpty_cons, Bool.false_eq_true, if_false, List.map_cons, List.map_nil, List.flatMap_cons,
          List.flatMap_nil, List.append_nil]
        unfold join
        rw [filter_nonempty (by
          intro y hy
          rcases List.mem_cons.1 hy with rfl | hy
          · simp [icmpPart]
          · obtain ⟨z, _, rfl⟩ := List.mem_map.1 hy
            simp [icmpPart])]
        refine .inr ((chain_paren (chain_icmp c x xs)).congr ?_)
        simp

theorem factor_dstNet {n : Net} (w : WF n) : Factor loc p (dstNet n) (Mem n p.ver p.dst) :=
  (factor_prim _).congr (by
    rw [Cisco.mem_iff_div w]
    show p.ver = n.ver ∧ _ ↔ _
    constructor
    · rintro ⟨h1, h2⟩; exact ⟨h1.symm, h1 ▸ h2⟩
    · rintro ⟨h1, h2⟩; exact ⟨h1.symm, h1 ▸ h2⟩)

theorem notAll6_true {n : Net} (h : n.ver = .v6 → n.plen ≠ 0) : notAll6 n = true := by
  unfold notAll6
  cases hv : n.ver with
  | v4 => rfl
  | v6 => simp [h hv]

/-- Included addresses only, or one excluded address only. -/
theorem addr_cond {inc exc : List Net} (hw : ∀ n ∈ inc ++ exc, WF n) (h6 : ∀ n ∈ inc ++ exc, n.ver = .v6 → n.plen ≠ 0)
    (he : exc = [] ∨ (inc = [] ∧ ∃ e, exc = [e])) : Cond loc p (addrStatement inc exc) (AddrMatch inc exc p.ver p.dst) := by
  have n6 : ∀ n ∈ inc ++ exc, notAll6 n = true := fun n hn => notAll6_true (h6 n hn)
  unfold addrStatement AddrMatch
  rcases he with rfl | ⟨rfl, e, rfl⟩
  · rw [List.append_nil] at hw n6
    rw [if_neg (by simp), if_pos (by rfl), List.filter_eq_self.2 n6]
    refine (join_or_map fun a ha => factor_dstNet (hw a ha)).congr ?_
    simp [Den]
  · rw [List.nil_append] at hw n6
    rw [if_neg (by simpa using n6 e (.head _)), if_neg (by simp)]
    show Cond loc p (join [.and, .not] [[], join [.or] [.not :: dstNet e]]) _
    rw [join_skip]
    refine .inr ((join_single (join_single (factor_not (factor_dstNet (hw e (.head _)))))).congr ?_)
    simp [Den]

theorem port_cond {ports : List Policy.PortRange} {dir : String} {x : Nat} (hd : (dir = "src" ∧ x = p.sport) ∨ (dir = "dst" ∧ x = p.dport))
    (hp : ports ≠ [] → p.proto ∈ ["tcp", "udp", "sctp"]) : Cond loc p (portStatement ports dir) (PortMatch ports x) := by
  refine (join_or_map (P := fun r => r.1 ≤ x ∧ x ≤ r.2) fun r hr => ?_).congr Iff.rfl
  have hp := hp (List.ne_nil_of_mem hr)
  unfold portPrim
  split
  next e =>
    refine (factor_prim _).congr ?_
    show (p.proto ∈ _ ∧ _) ↔ _
    rcases hd with ⟨rfl, rfl⟩ | ⟨rfl, rfl⟩ <;> simp [hp] <;> omega
  next e =>
    refine (factor_prim _).congr ?_
    show (p.proto ∈ _ ∧ _) ↔ _
    rcases hd with ⟨rfl, rfl⟩ | ⟨rfl, rfl⟩ <;> simp [hp]

end Pcap
end Verif
