import Verif.Props.JuniperText

/-!
C184: the printed terms of policies with tidy words are neat, so their text is read back.
-/

namespace Verif.Props
open Verif Verif.Juniper Verif.Spec.JunosText Verif.Spec.VersaText Verif.Policy Verif.Aclgenerator

/-- One piece of a statement is neat. -/
def NeatTok (text : Ver → Nat → Nat → Str) : Juniper.Tok → Prop
  | .w s => Neat s.toList
  | .pfx v a p => Tidy (text v a p)
  | _ => True

theorem mk_stmt {text : Ver → Nat → Nat → Str} {ws : List Juniper.Tok} (h1 : ws ≠ []) (h2 : ∀ t ∈ ws, NeatTok text t) : NeatStmt text ws :=
  ⟨h1, fun t ht => by have := h2 t ht; cases t <;> exact this⟩

theorem wordsIn_none : ∀ {s : Str}, ' ' ∉ s → wordsIn s = [s]
  | [], _ => rfl
  | c :: s, h => by
    rw [wordsIn, if_neg (fun e => h (by rw [e]; simp)), wordsIn_none fun hh => h (List.mem_cons_of_mem _ hh)]

theorem neat_tidy {s : Str} (h : Tidy s) : Neat s := by
  refine .inr ⟨?_, ?_⟩
  · cases s with
    | nil => simp
    | cons c s =>
      intro e
      injection e with e
      exact (h.1.2.1 c (by simp)).1 e
  · rw [wordsIn_none fun hh => absurd (h.2 _ hh) (by decide)]
    intro w hw
    rw [List.mem_singleton.1 hw]
    exact h

theorem all_from {α β : Type} {R : α → β → Prop} : ∀ {l : List α} {r : List β}, Spec.All₂ R l r → ∀ b ∈ r, ∃ a, a ∈ l ∧ R a b
  | _, _, .nil, _, hb => nomatch hb
  | _, _, .cons h hs, b, hb => by
    rcases List.mem_cons.1 hb with rfl | hb
    · exact ⟨_, by simp, h⟩
    · obtain ⟨a, h1, h2⟩ := all_from hs b hb
      exact ⟨a, by simp [h1], h2⟩

theorem toks_nil {text : Ver → Nat → Nat → Str} : ∀ t ∈ ([] : List Juniper.Tok), NeatTok text t := nofun

theorem toks_cons {text : Ver → Nat → Nat → Str} {t : Juniper.Tok} {ws : List Juniper.Tok} (h : NeatTok text t)
    (hs : ∀ t ∈ ws, NeatTok text t) : ∀ u ∈ t :: ws, NeatTok text u := List.forall_mem_cons.2 ⟨h, hs⟩

theorem stmt_cons {text : Ver → Nat → Nat → Str} {t : Juniper.Tok} {ws : List Juniper.Tok} (h : NeatTok text t)
    (hs : ∀ t ∈ ws, NeatTok text t) : NeatStmt text (t :: ws) := mk_stmt (by simp) (toks_cons h hs)

theorem neat_group {text : Ver → Nat → Nat → Str} {hd : String} {l : List Juniper.Tok} (h : Neat hd.toList)
    (hs : ∀ t ∈ l, NeatTok text t) : NeatStmt text (group hd l) := by
  unfold group
  split
  · refine stmt_cons h (toks_cons (neatText_of (by decide +kernel)) ?_)
    intro t ht
    rcases List.mem_append.1 ht with ht | ht
    · exact hs t ht
    · rw [List.mem_singleton.1 ht]
      exact neatText_of (by decide +kernel)
  · exact stmt_cons h hs

theorem neat_words {text : Ver → Nat → Nat → Str} {l : List String} (h : ∀ s ∈ l, Tidy s.toList) : ∀ t ∈ wordToks l, NeatTok text t := by
  intro t ht
  obtain ⟨s, hs, rfl⟩ := List.mem_map.1 ht
  exact neat_tidy (h s hs)

theorem neat_ports {text : Ver → Nat → Nat → Str} {l : List PortRange} : ∀ t ∈ l.map portTok, NeatTok text t := by
  intro t ht
  obtain ⟨s, _, rfl⟩ := List.mem_map.1 ht
  unfold portTok
  split <;> trivial

theorem neat_span {text : Ver → Nat → Nat → Str} {l : List Nat} (h : l ≠ []) : NeatTok text (spanTok l) := by
  match l, h with
  | [], h => exact absurd rfl h
  | [_], _ => trivial
  | _ :: _ :: _, _ => trivial

/-- All conditions are neat. -/
def Conds (text : Ver → Nat → Nat → Str) (l : List Cond) : Prop := ∀ c ∈ l, NeatCond text c

theorem conds_opt {text : Ver → Nat → Nat → Str} {b : Bool} {c : Cond} (h : b = true → NeatCond text c) : Conds text (opt b c) := by
  unfold opt
  split
  next hb => intro d hd; rw [List.mem_singleton.1 hd]; exact h hb
  next => exact nofun

theorem conds_append {text : Ver → Nat → Nat → Str} {a b : List Cond} (ha : Conds text a) (hb : Conds text b) : Conds text (a ++ b) := by
  intro c hc
  rcases List.mem_append.1 hc with h | h
  · exact ha c h
  · exact hb c h

theorem conds_one {text : Ver → Nat → Nat → Str} {c : Cond} (h : NeatCond text c) : Conds text [c] := by
  intro d hd
  rw [List.mem_singleton.1 hd]
  exact h

theorem neat_prefixes {text : Ver → Nat → Nat → Str} {hd : String} {a b : List String} (h : Tidy hd.toList) (ha : ∀ s ∈ a, Tidy s.toList)
    (hb : ∀ s ∈ b, Tidy s.toList) : Conds text (prefixCond hd a b) := by
  refine conds_opt fun _ => ⟨h, ?_⟩
  intro ws hw
  rcases List.mem_append.1 hw with hw | hw
  · obtain ⟨s, hs, rfl⟩ := List.mem_map.1 hw
    exact stmt_cons (neat_tidy (ha s hs)) toks_nil
  · obtain ⟨s, hs, rfl⟩ := List.mem_map.1 hw
    exact stmt_cons (neat_tidy (hb s hs)) (toks_cons (neatText_of (by decide +kernel)) toks_nil)

theorem neat_conds1 {text : Ver → Nat → Nat → Str} {ty : TType} {j : JTerm} (h : Calm j) : Conds text (conds1 ty j.term) := by
  refine conds_append (conds_opt fun _ => neat_group (neatText_of (by decide +kernel)) (neat_words (h.words _ (by simp)))) ?_
  refine conds_append (conds_opt fun _ => neat_group (neatText_of (by decide +kernel)) (neat_words (h.words _ (by simp)))) ?_
  refine conds_append (neat_prefixes (by unfold Tidy; decide +kernel) (h.words _ (by simp)) (h.words _ (by simp))) ?_
  refine conds_append (neat_prefixes (by unfold Tidy; decide +kernel) (h.words _ (by simp)) (h.words _ (by simp))) ?_
  refine conds_append (conds_opt fun _ => stmt_cons (neatText_of (by decide +kernel)) (toks_cons trivial toks_nil)) ?_
  refine conds_append (conds_opt fun _ => neat_group (neatText_of (by decide +kernel)) neat_ports) ?_
  refine conds_append (conds_opt fun _ => neat_group (neatText_of (by decide +kernel)) neat_ports) ?_
  exact conds_opt fun _ => neat_group (neatText_of (by decide +kernel)) neat_ports

theorem neat_conds2 {text : Ver → Nat → Nat → Str} (t : Term) : Conds text (conds2 t) := by
  refine conds_append (conds_opt fun hb => ?_) (conds_opt fun hb => ?_)
  · exact stmt_cons (neatText_of (by decide +kernel)) (toks_cons (neat_span (by intro e; rw [e] at hb; cases hb)) toks_nil)
  · exact stmt_cons (neatText_of (by decide +kernel)) (toks_cons (neat_span (by intro e; rw [e] at hb; cases hb)) toks_nil)

theorem neat_icmp {text : Ver → Nat → Nat → Str} {ty : TType} {t : Term} {l : List Cond} (h : icmpCond ty t = .ok l) : Conds text l := by
  unfold icmpCond at h
  split at h
  · cases h; exact nofun
  · obtain ⟨ns, _, h⟩ := bind_ok h
    cases h
    refine conds_one (neat_group (neatText_of (by decide +kernel)) ?_)
    intro t ht
    obtain ⟨n, _, rfl⟩ := List.mem_map.1 ht
    trivial

theorem replace_mem {a b : String} : ∀ {l : List String} {s : String}, s ∈ replaceFirst a b l → s ∈ l ∨ s = b
  | x :: xs, s, h => by
    rw [replaceFirst] at h
    split at h
    · rcases List.mem_cons.1 h with rfl | h
      · exact .inr rfl
      · exact .inl (List.mem_cons_of_mem _ h)
    · rcases List.mem_cons.1 h with rfl | h
      · exact .inl (by simp)
      · rcases replace_mem h with h | h
        · exact .inl (List.mem_cons_of_mem _ h)
        · exact .inr h

theorem tidy_replace {a b : String} {l : List String} (hb : Tidy b.toList) (h : ∀ s ∈ l, Tidy s.toList) :
    ∀ s ∈ replaceFirst a b l, Tidy s.toList := by
  intro s hs
  rcases replace_mem hs with hs | rfl
  · exact h s hs
  · exact hb

theorem neat_kw (ty : TType) : Neat (kw ty "protocol").toList ∧ Neat (kw ty "protocol-except").toList ∧
    Tidy (kw ty "addr").toList ∧ Tidy (kw ty "saddr").toList ∧ Tidy (kw ty "daddr").toList := by
  refine ⟨neatText_of ?_, neatText_of ?_, ?_, ?_, ?_⟩ <;> cases ty <;> first | decide +kernel | (unfold Tidy; decide +kernel)

theorem neat_conds3 {text : Ver → Nat → Nat → Str} {ty : TType} {j : JTerm} (h : Calm j) : Conds text (conds3 ty (renameIcmp j.term)) := by
  refine conds_append (conds_opt fun _ => neat_group (neatText_of (by decide +kernel)) ?_) ?_
  · intro t ht
    obtain ⟨n, _, rfl⟩ := List.mem_map.1 ht
    trivial
  refine conds_append (conds_opt fun _ => neat_group (neatText_of (by decide +kernel)) (neat_words (h.words _ (by simp [renameIcmp])))) ?_
  refine conds_append (conds_opt fun _ => neat_group (neat_kw ty).1 (neat_words (tidy_replace (by unfold Tidy; decide +kernel)
    (h.words _ (by simp))))) ?_
  refine conds_append (conds_opt fun _ => neat_group (neat_kw ty).2.1 (neat_words (tidy_replace (by unfold Tidy; decide +kernel)
    (h.words _ (by simp))))) ?_
  exact conds_opt fun _ => neat_group (neatText_of (by decide +kernel)) (neat_words (h.words _ (by simp [renameIcmp])))

theorem neat_prec {text : Ver → Nat → Nat → Str} {j : JTerm} {l : List Cond} (hc : Calm j) (h : precCond j.term = .ok l) : Conds text l := by
  unfold precCond at h
  split at h
  · cases h; exact nofun
  · obtain ⟨ns, _, h⟩ := bind_ok h
    cases h
    refine conds_one (neat_group (neatText_of (by decide +kernel)) (neat_words ?_))
    intro s hs
    refine hc.words j.term.precedence (by simp) s ?_
    have := (isort_perm strLe _).mem_iff.1 hs
    exact List.mem_eraseDups.1 this

theorem neat_bracketed {text : Ver → Nat → Nat → Str} {hd : String} {l : List String} (h : Neat hd.toList) (hl : ∀ s ∈ l, Tidy s.toList) :
    NeatStmt text (bracketed hd l) := by
  refine stmt_cons h (toks_cons (neatText_of (by decide +kernel)) ?_)
  intro t ht
  rcases List.mem_append.1 ht with ht | ht
  · exact neat_words hl t ht
  · rw [List.mem_singleton.1 ht]
    exact neatText_of (by decide +kernel)

theorem neat_conds4 {text : Ver → Nat → Nat → Str} {ty : TType} {j : JTerm} (h : Calm j) : Conds text (conds4 ty j.term) := by
  refine conds_append (conds_opt fun _ => neat_bracketed (neatText_of (by split <;> decide +kernel)) (h.words _ (by simp))) ?_
  refine conds_append (conds_opt fun _ => neat_bracketed (neatText_of (by split <;> decide +kernel)) (h.words _ (by simp))) ?_
  refine conds_append (conds_opt fun hb => stmt_cons (neatText_of (by decide +kernel)) (toks_cons (neat_span ?_) toks_nil)) ?_
  · intro e; rw [e] at hb; cases hb
  refine conds_opt fun _ => ⟨by unfold Tidy; decide +kernel, ?_⟩
  intro ws hw
  obtain ⟨s, hs, rfl⟩ := List.mem_map.1 hw
  exact stmt_cons (.inr (h.flexible s hs)) toks_nil

theorem neat_addrTok {text : Ver → Nat → Nat → Str} (ht : ∀ v a p, Tidy (text v a p)) {a : JAddr} {t : Juniper.Tok} (h : addrTok a = .ok t) :
    NeatTok text t := by
  cases a with
  | net n => cases h; exact ht _ _ _
  | dsm d =>
    obtain ⟨p, _, h⟩ := bind_ok h
    cases h
    trivial

theorem neat_addr {text : Ver → Nat → Nat → Str} (ht : ∀ v a p, Tidy (text v a p)) {af : Ver} {dsmo : Bool} {hd : String}
    {inc exc : List Net} {l : List Cond} (hh : Tidy hd.toList) (h : addrCond af dsmo hd inc exc = .ok (some l)) : Conds text l := by
  unfold addrCond at h
  dsimp only at h
  split at h
  · split at h
    · cases h; exact nofun
    · cases h
  · obtain ⟨is, h1, h⟩ := bind_ok h
    obtain ⟨es, h2, h⟩ := bind_ok h
    cases h
    refine conds_one ⟨hh, ?_⟩
    intro ws hw
    rcases List.mem_append.1 hw with hw | hw
    · obtain ⟨t, hm, rfl⟩ := List.mem_map.1 hw
      obtain ⟨a, _, ha⟩ := all_from (listM_ok h1) _ hm
      exact stmt_cons (neat_addrTok ht ha) toks_nil
    · obtain ⟨t, hm, rfl⟩ := List.mem_map.1 hw
      obtain ⟨a, _, ha⟩ := all_from (listM_ok h2) _ hm
      exact stmt_cons (neat_addrTok ht ha) (toks_cons (neatText_of (by decide +kernel)) toks_nil)

theorem neat_addrs {text : Ver → Nat → Nat → Str} (ht : ∀ v a p, Tidy (text v a p)) {ty : TType} {dsmo : Bool} {t : Term} {l : List Cond}
    (h : addrConds ty dsmo t = .ok (some l)) : Conds text l := by
  unfold addrConds at h
  obtain ⟨a, h1, h⟩ := bind_ok h
  cases a with
  | none => cases h
  | some a =>
    obtain ⟨s, h2, h⟩ := bind_ok h
    cases s with
    | none => cases h
    | some s =>
      obtain ⟨d, h3, h⟩ := bind_ok h
      cases d with
      | none => cases h
      | some d =>
        cases h
        exact conds_append (neat_addr ht (neat_kw ty).2.2.1 h1) (conds_append (neat_addr ht (neat_kw ty).2.2.2.1 h2)
          (neat_addr ht (neat_kw ty).2.2.2.2 h3))

/-! ### options and actions -/

/-- What the option loop has found. -/
def OptsOk (text : Ver → Nat → Nat → Str) (o : List (List Juniper.Tok) × List String) : Prop :=
  (∀ ws ∈ o.1, NeatStmt text ws) ∧ ∀ e ∈ o.2, e = "sample"

theorem opts_add {text : Ver → Nat → Nat → Str} {o : List (List Juniper.Tok) × List String} {ws : List Juniper.Tok} (h : OptsOk text o)
    (hw : NeatStmt text ws) : OptsOk text (o.1 ++ [ws], o.2) := by
  refine ⟨?_, h.2⟩
  intro x hx
  rcases List.mem_append.1 hx with hx | hx
  · exact h.1 x hx
  · rw [List.mem_singleton.1 hx]; exact hw

theorem neat_quoted {s w : Str} (hs : s = '"' :: (w ++ ['"'])) (hw : '"' ∉ w) : Neat s := .inl ⟨w, hw, hs⟩

theorem neat_tcpEst {text : Ver → Nat → Nat → Str} (ty : TType) : NeatStmt text (tcpEst ty) := by
  cases ty with
  | bridge =>
    exact stmt_cons (neatText_of (by decide +kernel)) (toks_cons (neat_quoted (w := "(ack|rst)".toList) (by decide +kernel) (by decide +kernel)) toks_nil)
  | inet => exact stmt_cons (neatText_of (by decide +kernel)) toks_nil
  | inet6 => exact stmt_cons (neatText_of (by decide +kernel)) toks_nil

theorem neat_option {text : Ver → Nat → Nat → Str} {ty : TType} {ps : List String} {acc r : List (List Juniper.Tok) × List String} {o : String}
    (ha : OptsOk text acc) (ho : Tidy o.toList) (h : optionStep ty ps acc o = .ok r) : OptsOk text r := by
  unfold optionStep at h
  split at h
  · cases h
    refine ⟨ha.1, ?_⟩
    intro e he
    rcases List.mem_append.1 he with he | he
    · exact ha.2 e he
    · exact List.mem_singleton.1 he
  split at h
  · split at h
    · cases h; exact opts_add ha (neat_tcpEst ty)
    · cases h; exact ha
  split at h
  · split at h
    · cases h
      split
      · exact ha
      · exact opts_add ha (neat_tcpEst ty)
    · cases h
  split at h
  · cases h
    exact opts_add ha (stmt_cons (neatText_of (by decide +kernel)) (toks_cons (neat_quoted (w := "rst".toList) (by decide +kernel) (by decide +kernel)) toks_nil))
  split at h
  · cases h; exact opts_add ha (stmt_cons (neatText_of (by decide +kernel)) toks_nil)
  split at h
  · cases h; exact opts_add ha (stmt_cons (neatText_of (by decide +kernel)) toks_nil)
  · cases h; exact opts_add ha (stmt_cons (neat_tidy ho) toks_nil)

theorem neat_options {text : Ver → Nat → Nat → Str} {ty : TType} {ps : List String} : ∀ {os : List String}
    {acc r : List (List Juniper.Tok) × List String}, OptsOk text acc → (∀ o ∈ os, Tidy o.toList) → options ty ps acc os = .ok r → OptsOk text r
  | [], _, _, ha, _, h => by cases h; exact ha
  | o :: os, _, _, ha, ho, h => by
    rw [options] at h
    obtain ⟨a, h1, h⟩ := bind_ok h
    exact neat_options (neat_option ha (ho o (by simp)) h1) (fun x hx => ho x (by simp [hx])) h

/-- All statements are neat. -/
def Stmts (text : Ver → Nat → Nat → Str) (l : List (List Juniper.Tok)) : Prop := ∀ ws ∈ l, NeatStmt text ws

theorem stmts_append {text : Ver → Nat → Nat → Str} {a b : List (List Juniper.Tok)} (ha : Stmts text a) (hb : Stmts text b) : Stmts text (a ++ b) := by
  intro c hc
  rcases List.mem_append.1 hc with h | h
  · exact ha c h
  · exact hb c h

theorem stmts_one {text : Ver → Nat → Nat → Str} {ws : List Juniper.Tok} (h : NeatStmt text ws) : Stmts text [ws] := by
  intro d hd
  rw [List.mem_singleton.1 hd]
  exact h

theorem stmts_arg {text : Ver → Nat → Nat → Str} {hd s : String} (h : Neat hd.toList) (hs : s = "" ∨ Tidy s.toList) : Stmts text (argStmt hd s) := by
  unfold argStmt opt
  split
  next hb =>
    refine stmts_one (stmt_cons h (toks_cons ?_ toks_nil))
    rcases hs with rfl | hs
    · cases hb
    · exact neat_tidy hs
  next => exact nofun

theorem stmts_nextIp {text : Ver → Nat → Nat → Str} (ht : ∀ v a p, Tidy (text v a p)) (l : List Net) : Stmts text (nextIpStmt l) := by
  intro ws hw
  obtain ⟨n, _, rfl⟩ := List.mem_map.1 hw
  exact stmt_cons (neatText_of (by split <;> decide +kernel)) (toks_cons (ht _ _ _) toks_nil)

theorem table_mem {a s : String} (h : actionTable.lookup a = some s) : (a, s) ∈ actionTable := by
  obtain ⟨l, r, e, _⟩ := List.lookup_eq_some_iff.1 h
  rw [e]; simp

theorem table_neat {a s : String} (h : actionTable.lookup a = some s) : Neat s.toList :=
  neatText_of ((by decide +kernel : ∀ p ∈ actionTable, p.2.toList.head? ≠ some '"' ∧
    ∀ w ∈ wordsIn p.2.toList, Plain w ∧ ∀ c ∈ w, PyStr.isSpace c = false) _ (table_mem h))

theorem table_caps {a s : String} (h : actionTable.lookup a = some s) : (s = "encapsulate" → a = "encapsulate") ∧
    (s = "decapsulate" → a = "decapsulate") :=
  (by decide +kernel : ∀ p ∈ actionTable, (p.2 = "encapsulate" → p.1 = "encapsulate") ∧ (p.2 = "decapsulate" → p.1 = "decapsulate"))
    _ (table_mem h)

theorem stmts_one_action {text : Ver → Nat → Nat → Str} (ht : ∀ v a p, Tidy (text v a p)) {ty : TType} {j : JTerm} {a : String} {r : Bool × List (List Juniper.Tok)}
    (hc : Calm j) (he : a = "encapsulate" → j.encapsulate ≠ "") (hd : a = "decapsulate" → j.decapsulate ≠ "")
    (h : oneAction ty j a = .ok r) : Stmts text r.2 := by
  unfold oneAction at h
  split at h
  · split at h
    · cases h
    · cases h; exact stmts_nextIp ht _
  next s hs =>
    have hn := table_neat hs
    split at h
    · cases h; exact stmts_one (stmt_cons hn toks_nil)
    split at h
    next e =>
      cases h
      have h1 := (hc.args j.encapsulate (by simp)).resolve_left (he ((table_caps hs).1 e))
      exact stmts_one (stmt_cons hn (toks_cons (neat_tidy h1) toks_nil))
    split at h
    next e =>
      cases h
      have h1 := (hc.args j.decapsulate (by simp)).resolve_left (hd ((table_caps hs).2 e))
      exact stmts_one (stmt_cons hn (toks_cons (neat_tidy h1) toks_nil))
    · cases h; exact stmts_one (stmt_cons hn toks_nil)

theorem stmts_list {text : Ver → Nat → Nat → Str} (ht : ∀ v a p, Tidy (text v a p)) {ty : TType} {j : JTerm} {ex : List String}
    {acts : List (List Juniper.Tok)} (hc : Calm j) (hx : ∀ e ∈ ex, e = "sample") (hacts : Stmts text acts) : Stmts text
    (j.term.logging.map (fun l => [.w (if l = "local" then "log" else "syslog")]) ++
    (argStmt "routing-instance" j.routing ++ (argStmt "count" j.counter ++
    (argStmt "traffic-class-count" j.trafficClassCount ++ (argStmt "policer" j.policer ++
    (argStmt "forwarding-class" j.qos ++ (opt j.term.portMirror [.w "port-mirror"] ++
    (argStmt "loss-priority" j.lossPriority ++ (nextIpStmt j.nextIp ++ (argStmt "encapsulate" j.encapsulate ++
    (argStmt "decapsulate" j.decapsulate ++ (ex.map (fun e => [.w e]) ++ (acts ++
    argStmt (if ty = .inet6 then "traffic-class" else "dscp") j.dscpSet))))))))))))) := by
  refine stmts_append ?_ ?_
  · intro ws hw
    obtain ⟨l, _, rfl⟩ := List.mem_map.1 hw
    exact stmt_cons (neatText_of (by split <;> decide +kernel)) toks_nil
  refine stmts_append (stmts_arg (neatText_of (by decide +kernel)) (hc.args _ (by simp))) ?_
  refine stmts_append (stmts_arg (neatText_of (by decide +kernel)) (hc.args _ (by simp))) ?_
  refine stmts_append (stmts_arg (neatText_of (by decide +kernel)) (hc.args _ (by simp))) ?_
  refine stmts_append (stmts_arg (neatText_of (by decide +kernel)) (hc.args _ (by simp))) ?_
  refine stmts_append (stmts_arg (neatText_of (by decide +kernel)) (hc.args _ (by simp))) ?_
  refine stmts_append ?_ ?_
  · unfold opt
    split
    · exact stmts_one (stmt_cons (neatText_of (by decide +kernel)) toks_nil)
    · exact nofun
  refine stmts_append (stmts_arg (neatText_of (by decide +kernel)) (hc.args _ (by simp))) ?_
  refine stmts_append (stmts_nextIp ht _) ?_
  refine stmts_append (stmts_arg (neatText_of (by decide +kernel)) (hc.args _ (by simp))) ?_
  refine stmts_append (stmts_arg (neatText_of (by decide +kernel)) (hc.args _ (by simp))) ?_
  refine stmts_append ?_ ?_
  · intro ws hw
    obtain ⟨e, he, rfl⟩ := List.mem_map.1 hw
    rw [hx e he]
    exact stmt_cons (neatText_of (by decide +kernel)) toks_nil
  refine stmts_append hacts ?_
  exact stmts_arg (neatText_of (by split <;> decide +kernel)) (hc.args _ (by simp))

theorem stmts_many {text : Ver → Nat → Nat → Str} (ht : ∀ v a p, Tidy (text v a p)) {ty : TType} {j : JTerm} {ex : List String}
    {r : List (List Juniper.Tok)} (hc : Calm j) (hx : ∀ e ∈ ex, e = "sample") (h : manyActions ty j ex = .ok r) : Stmts text r := by
  have hacts : ∀ {acts}, listM actionStmt j.term.action = .ok acts → Stmts text acts := by
    intro acts ha ws hw
    obtain ⟨a, _, ha⟩ := all_from (listM_ok ha) _ hw
    unfold actionStmt at ha
    split at ha
    · cases ha
    next s hs => cases ha; exact stmt_cons (table_neat hs) toks_nil
  unfold manyActions at h
  dsimp only at h
  split at h
  · obtain ⟨_, _, h⟩ := bind_ok h
    split at h
    · obtain ⟨acts, ha, h⟩ := bind_ok h
      cases h; exact stmts_list ht hc hx (hacts ha)
    · cases h; exact stmts_list ht hc hx nofun
  · split at h
    · obtain ⟨acts, ha, h⟩ := bind_ok h
      cases h; exact stmts_list ht hc hx (hacts ha)
    · cases h; exact stmts_list ht hc hx nofun

theorem chars_one {s a : String} (h : a ∈ chars s) : a.toList.length = 1 := by
  obtain ⟨c, _, rfl⟩ := List.mem_map.1 h
  simp

theorem caps_set {j : JTerm} {ex : List String} {a : String} (hc : Calm j) (hx : ∀ e ∈ ex, e = "sample") (ha : a ∈ uniqueActions j ex) :
    (a = "encapsulate" → j.encapsulate ≠ "") ∧ (a = "decapsulate" → j.decapsulate ≠ "") := by
  have base : a ∈ (ex ++ ((if j.routing = "" then j.term.action else []) ++
      (opt (j.encapsulate != "") "encapsulate" ++ opt (j.decapsulate != "") "decapsulate"))).eraseDups →
      (a = "encapsulate" → j.encapsulate ≠ "") ∧ (a = "decapsulate" → j.decapsulate ≠ "") := by
    intro h
    rcases List.mem_append.1 (List.mem_eraseDups.1 h) with h | h
    · rw [hx a h]; exact ⟨fun e => absurd e (by decide), fun e => absurd e (by decide)⟩
    rcases List.mem_append.1 h with h | h
    · split at h
      · exact ⟨fun e => absurd e (hc.actions a (by simp [h])).1, fun e => absurd e (hc.actions a (by simp [h])).2⟩
      · cases h
    rcases List.mem_append.1 h with h | h
    · unfold opt at h
      split at h
      next hb => rw [List.mem_singleton.1 h]; exact ⟨fun _ => by simpa using hb, fun e => absurd e (by decide)⟩
      next => cases h
    · unfold opt at h
      split at h
      next hb => rw [List.mem_singleton.1 h]; exact ⟨fun e => absurd e (by decide), fun _ => by simpa using hb⟩
      next => cases h
  have short : a.toList.length = 1 → (a = "encapsulate" → j.encapsulate ≠ "") ∧ (a = "decapsulate" → j.decapsulate ≠ "") := by
    intro h
    refine ⟨fun e => ?_, fun e => ?_⟩ <;> · rw [e] at h; exact absurd h (by decide)
  unfold uniqueActions at ha
  dsimp only at ha
  generalize (ex ++ ((if j.routing = "" then j.term.action else []) ++
      (opt (j.encapsulate != "") "encapsulate" ++ opt (j.decapsulate != "") "decapsulate"))).eraseDups = bs at ha base
  split at ha
  · rcases List.mem_append.1 (List.mem_eraseDups.1 ha) with h | h
    · exact base h
    rcases List.mem_append.1 h with h | h
    · exact ⟨fun e => absurd e (hc.actions a (by simp [h])).1, fun e => absurd e (hc.actions a (by simp [h])).2⟩
    rcases List.mem_append.1 h with h | h
    · exact short (chars_one h)
    rcases List.mem_append.1 h with h | h
    · exact short (chars_one h)
    rcases List.mem_append.1 h with h | h
    · exact short (chars_one h)
    rcases List.mem_append.1 h with h | h
    · exact short (chars_one h)
    rcases List.mem_append.1 h with h | h
    · exact short (chars_one h)
    rcases List.mem_append.1 h with h | h
    · exact short (chars_one h)
    rcases List.mem_append.1 h with h | h
    · obtain ⟨n, _, rfl⟩ := List.mem_map.1 h
      have hd : ("network " ++ toString n.addr ++ "/" ++ toString n.plen).toList.head? = some 'n' := by
        simp only [String.toList_append, List.append_assoc]
        rfl
      refine ⟨fun e => ?_, fun e => ?_⟩ <;> · rw [e] at hd; exact absurd hd (by decide)
    rcases List.mem_append.1 h with h | h
    · exact short (chars_one h)
    · split at h
      · exact short (chars_one h)
      · cases h
  · exact base ha

theorem stmts_then {text : Ver → Nat → Nat → Str} (ht : ∀ v a p, Tidy (text v a p)) {ty : TType} {j : JTerm} {ex : List String}
    {r : Option (Bool × List (List Juniper.Tok))} (hc : Calm j) (hx : ∀ e ∈ ex, e = "sample") (h : thenClause ty j ex = .ok r) :
    ∀ b l, r = some (b, l) → Stmts text l := by
  unfold thenClause at h
  obtain ⟨_, _, h⟩ := bind_ok h
  split at h
  · cases h; exact nofun
  next a e =>
    intro b l hr
    subst hr
    have hu := caps_set (a := a) hc hx (by rw [e]; simp)
    cases ho : oneAction ty j a with
    | error e => rw [ho] at h; cases h
    | ok p =>
      rw [ho] at h
      cases h
      exact stmts_one_action ht hc hu.1 hu.2 ho
  · intro b l hr
    subst hr
    cases ho : manyActions ty j ex with
    | error e => rw [ho] at h; cases h
    | ok p =>
      rw [ho] at h
      cases h
      exact stmts_many ht hc hx ho

theorem removeFirst_mem {a : String} : ∀ {l : List String} {s : String}, s ∈ removeFirst a l → s ∈ l
  | x :: xs, s, h => by
    rw [removeFirst] at h
    split at h
    · exact List.mem_cons_of_mem _ h
    · rcases List.mem_cons.1 h with rfl | h
      · simp
      · exact List.mem_cons_of_mem _ (removeFirst_mem h)

theorem prune_mem {ty : TType} {l : List String} {s : String} (h : s ∈ pruneIcmp ty l) : s ∈ l := by
  cases ty with
  | inet => exact removeFirst_mem (removeFirst_mem h)
  | inet6 => exact removeFirst_mem h
  | bridge => exact h

theorem calm_prune {ty : TType} {j : JTerm} (h : Calm j) : Calm { j with term := { j.term with protocol := pruneIcmp ty j.term.protocol } } where
  name := h.name
  words := by
    intro l hl s hs
    simp only [List.mem_cons, List.not_mem_nil, or_false] at hl
    rcases hl with rfl | rfl | rfl | rfl | rfl | rfl | rfl | rfl | rfl | rfl | rfl | rfl | rfl | rfl
    case inr.inr.inr.inr.inr.inr.inr.inl => exact h.words j.term.protocol (by simp) s (prune_mem hs)
    all_goals exact h.words _ (by simp) s hs
  flexible := h.flexible
  args := h.args
  actions := h.actions
  own := h.own

theorem neat_printed {text : Ver → Nat → Nat → Str} (ht : ∀ v a p, Tidy (text v a p)) {ty : TType} {dsmo : Bool} {j j' : JTerm} {out : Out}
    {o : List (List Juniper.Tok) × List String} (hc : Calm j) (ho : OptsOk text o) (h : printTerm ty dsmo j o = .ok (some out, j')) :
    ∃ inactive body, out = .term inactive j.term.name body ∧ ∀ fn, Tidy fn → NeatBody text fn body := by
  unfold printTerm at h
  split at h
  · cases h; exact ⟨_, _, rfl, fun fn hf => hf⟩
  split at h
  · obtain ⟨ac, h1, h⟩ := bind_ok h
    cases ac with
    | none => cases h
    | some ac =>
      obtain ⟨rc, h2, h⟩ := bind_ok h
      obtain ⟨th, h3, h⟩ := bind_ok h
      cases h
      refine ⟨_, _, rfl, fun fn _ => ⟨?_, stmts_then ht hc ho.2 h3⟩⟩
      intro l hl
      cases hl
      refine conds_append (neat_addrs ht h1) ?_
      unfold restConds at h2
      obtain ⟨ic, hi, h2⟩ := bind_ok h2
      obtain ⟨pc, hp, h2⟩ := bind_ok h2
      cases h2
      refine conds_append (neat_conds1 hc) (conds_append ?_ (conds_append (neat_conds2 _) (conds_append (neat_icmp hi)
        (conds_append (neat_conds3 hc) (conds_append (neat_prec hc hp) (neat_conds4 hc))))))
      intro c hcm
      obtain ⟨ws, hw, rfl⟩ := List.mem_map.1 hcm
      exact ho.1 ws hw
  · obtain ⟨th, h3, h⟩ := bind_ok h
    cases h
    exact ⟨_, _, rfl, fun fn _ => ⟨nofun, stmts_then ht hc ho.2 h3⟩⟩

/-- The printed term of a policy with tidy words is neat. -/
theorem neat_rendered {text : Ver → Nat → Nat → Str} (ht : ∀ v a p, Tidy (text v a p)) {platform : String} {ty : TType} {dsmo : Bool} {j j' : JTerm} {out : Out}
    (hc : Calm j) (h : renderTerm platform ty dsmo j = .ok (some out, j')) :
    ∃ inactive body, out = .term inactive j.term.name body ∧ ∀ fn, Tidy fn → NeatBody text fn body := by
  unfold renderTerm at h
  split at h
  · cases h
  dsimp only at h
  split at h
  · cases h
  split at h
  next hv => rw [hc.own] at hv; cases hv
  · obtain ⟨o, h1, h⟩ := bind_ok h
    have h0 : OptsOk text ([], []) := ⟨fun _ h => (nomatch h), fun _ h => (nomatch h)⟩
    have ho := neat_options h0 (hc.words _ (by simp)) h1
    obtain ⟨a, b, c, d⟩ := neat_printed ht (calm_prune (ty := ty) hc) ho h
    exact ⟨a, b, c, d⟩

/-- C184 for policies: if all words of the terms, the names of the filters and the texts of the networks are without white
space, quotes, braces, semicolons and marks of comments, and the comments and owners do not end a comment, then the text of
the filters is read as what the terms print.

Partial: terms with verbatim lines are not covered. -/
theorem C184_policy_partial {text : Ver → Nat → Nat → Str} (ht : ∀ v a p, Tidy (text v a p)) {platform : String} {dsmo : Bool}
    {fs : List FilterText} {s : Str} (hf : ∀ f ∈ fs, Tidy f.family ∧ Tidy f.name ∧ ∀ c ∈ f.comments, Quiet c)
    (hx : ∀ f ∈ fs, ∀ x ∈ f.terms, (∀ c ∈ x.comments, Quiet c) ∧ (∀ o, x.owner = some o → Quiet o) ∧ Tidy x.filterName ∧
      ∃ ty j j', Calm j ∧ renderTerm platform ty dsmo j = .ok (some x.out, j'))
    (hs : fileText text fs = .ok s) : reads s = some (fs.map (filterItem text)) := by
  refine C184_read_partial (fun f hm => ⟨(hf f hm).1, (hf f hm).2.1, (hf f hm).2.2, fun x hxm => ?_⟩) hs
  obtain ⟨h1, h2, h3, ty, j, j', hc, hr⟩ := hx f hm x hxm
  obtain ⟨ina, body, e, hb⟩ := neat_rendered ht hc hr
  exact ⟨h1, h2, ina, _, body, e, hc.name, hb _ h3⟩

/-- A term of a policy with words of all kinds. -/
def exCalm : JTerm where
  term :=
    { name := "t1".toList
      protocol := ["tcp"]
      option := ["tcp-established", "sample"]
      action := ["accept"]
      destinationPort := [(80, 80), (8000, 8080)]
      logging := ["syslog"]
      forwardingClass := ["fc1", "fc2"] }
  counter := "c-1"

/-- A text for all networks. -/
def exText (_ : Ver) (a p : Nat) : Str := numText a ++ '/' :: numText p

example : ∀ v a p, Tidy (exText v a p) := fun _ a p =>
  have h := Lemmas.JuniperTextL.num_app (Lemmas.JuniperTextL.num_num a) (x := '/') (.inr (.inr (.inr rfl))) (Lemmas.JuniperTextL.num_num p)
  Lemmas.JuniperTextL.clean_num h.1 h.2

/-- The term is calm and is printed. -/
example : Calm exCalm ∧ ∃ out j', renderTerm "juniper" .inet false exCalm = .ok (some out, j') := by
  refine ⟨⟨by unfold Tidy; decide +kernel, by unfold Tidy; decide +kernel, by unfold Tidy; decide +kernel, by unfold Tidy; decide +kernel,
    by decide +kernel, by decide +kernel⟩, ?_⟩
  have : (match renderTerm "juniper" .inet false exCalm with | .ok (some _, _) => true | _ => false) = true := by decide +kernel
  revert this
  match renderTerm "juniper" .inet false exCalm with
  | .ok (some o, j') => exact fun _ => ⟨o, j', rfl⟩
  | .ok (none, _) => intro h; cases h
  | .error _ => intro h; cases h

end Verif.Props
