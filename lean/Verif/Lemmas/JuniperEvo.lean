import Verif.Lemmas.JuniperTerm
import Verif.Model.JuniperEvo
import Verif.Spec.JuniperEvo

/-!
Lemmas about the protocol conditions of Juniper terms, for Junos EVO.
-/

namespace Verif
namespace JuniperEvo
open Policy Aclgenerator Juniper Verif.Spec.Junos

/-- The keywords with which Junos EVO matches protocols. -/
def four : List String := ["next-header", "next-header-except", "payload-protocol", "payload-protocol-except"]

/-- The condition, if it has such a keyword, is an option or has one of the two lists as values. -/
def ProtoForm (O P PE : List String) (c : Cond) : Prop :=
  ∀ hd v, c = .leaf (.w hd :: v) → hd ∈ four →
    (v = [] ∧ hd ∈ O) ∨ (hd = "next-header" ∧ v ≠ [] ∧ values v = wordToks P) ∨
    (hd = "next-header-except" ∧ v ≠ [] ∧ values v = wordToks PE)

theorem form_block {O P PE : List String} {h : String} {ls : List (List Tok)} : ProtoForm O P PE (.block h ls) := by
  intro hd v e
  cases e

theorem form_head {O P PE : List String} {h : String} {l : List Tok} (hh : h ∉ four) : ProtoForm O P PE (.leaf (.w h :: l)) := by
  intro hd v e hm
  injection e with e
  injection e with e _
  injection e with e
  exact absurd (e ▸ hm) hh

theorem form_group {O P PE : List String} {h : String} {l : List Tok} (hh : h ∉ four) : ProtoForm O P PE (.leaf (group h l)) := by
  unfold group
  split
  · exact form_head hh
  · exact form_head hh

theorem form_one {O P PE : List String} {s : String} (hs : s ∈ O) : ProtoForm O P PE (.leaf [.w s]) := by
  intro hd v e hm
  injection e with e
  injection e with e e'
  injection e with e
  exact .inl ⟨e'.symm, e ▸ hs⟩

/-- The conditions made from options. -/
theorem form_options {O P PE : List String} {ty : TType} {protocol : List String} : ∀ {os : List String}
    {acc acc' : List (List Tok) × List String}, options ty protocol acc os = .ok acc' → (∀ o ∈ os, o ∈ O) →
    (∀ l ∈ acc.1, ProtoForm O P PE (.leaf l)) → ∀ l ∈ acc'.1, ProtoForm O P PE (.leaf l)
  | [], acc, acc', h, _, ha => by
    rw [options] at h
    cases h
    exact ha
  | o :: os, acc, acc', h, hO, ha => by
    rw [options] at h
    obtain ⟨b, h1, h2⟩ := bind_ok h
    refine form_options h2 (fun o ho => hO o (by simp [ho])) ?_
    have hest : ProtoForm O P PE (.leaf (tcpEst ty)) := by
      cases ty
      · exact form_head (by decide)
      · exact form_head (by decide)
      · exact form_head (by decide)
    have add : ∀ l : List Tok, ProtoForm O P PE (.leaf l) → ∀ m ∈ acc.1 ++ [l], ProtoForm O P PE (.leaf m) := by
      intro l hl m hm
      rcases List.mem_append.1 hm with hm | hm
      · exact ha m hm
      · rw [List.mem_singleton.1 hm]; exact hl
    unfold optionStep at h1
    split at h1
    · cases h1; exact ha
    · split at h1
      · split at h1
        · cases h1; exact add _ hest
        · cases h1; exact ha
      · split at h1
        · split at h1
          · simp only [Except.ok.injEq] at h1
            subst h1
            split
            · exact ha
            · exact add _ hest
          · cases h1
        · split at h1
          · cases h1; exact add _ (form_head (by decide))
          · split at h1
            · cases h1; exact add _ (form_head (by decide))
            · split at h1
              · cases h1; exact add _ (form_head (by decide))
              · cases h1; exact add _ (form_one (hO o (by simp)))

theorem form_addr {O P PE : List String} {af : Ver} {dsmo : Bool} {hd : String} {inc exc : List Net} {cs : List Cond}
    (h : addrCond af dsmo hd inc exc = .ok (some cs)) : ∀ c ∈ cs, ProtoForm O P PE c := by
  unfold addrCond at h
  dsimp only at h
  split at h
  · split at h
    · cases h; simp
    · cases h
  · obtain ⟨_, _, h⟩ := bind_ok h
    obtain ⟨_, _, h⟩ := bind_ok h
    cases h
    intro c hc
    rw [List.mem_singleton.1 hc]
    exact form_block

theorem form_addrs {O P PE : List String} {ty : TType} {dsmo : Bool} {t : Term} {cs : List Cond}
    (h : addrConds ty dsmo t = .ok (some cs)) : ∀ c ∈ cs, ProtoForm O P PE c := by
  unfold addrConds at h
  obtain ⟨a, ha, h⟩ := bind_ok h
  cases a with
  | none => cases h
  | some a =>
    dsimp only at h
    obtain ⟨s, hs, h⟩ := bind_ok h
    cases s with
    | none => cases h
    | some s =>
      dsimp only at h
      obtain ⟨d, hd, h⟩ := bind_ok h
      cases d with
      | none => cases h
      | some d =>
        cases h
        rw [forall_app, forall_app]
        exact ⟨form_addr ha, form_addr hs, form_addr hd⟩

theorem form_proto {O P PE : List String} {h : String} {l : List String} (hl : (!l.isEmpty) = true)
    (hh : (h = "next-header" ∧ l = P) ∨ (h = "next-header-except" ∧ l = PE) ∨ h ∉ four) :
    ProtoForm O P PE (.leaf (group h (wordToks l))) := by
  have hne : wordToks l ≠ [] := by
    cases l with
    | nil => cases hl
    | cons => simp [wordToks]
  obtain ⟨v, e, ev⟩ := values_group h hne
  have hv : v ≠ [] := by
    rintro rfl
    exact hne (ev.symm.trans rfl)
  rcases hh with ⟨rfl, rfl⟩ | ⟨rfl, rfl⟩ | hh
  · rw [e]
    intro hd v' e' _
    injection e' with e'
    injection e' with e1 e2
    injection e1 with e1
    exact .inr (.inl ⟨e1.symm, e2 ▸ hv, e2 ▸ ev⟩)
  · rw [e]
    intro hd v' e' _
    injection e' with e'
    injection e' with e1 e2
    injection e1 with e1
    exact .inr (.inr ⟨e1.symm, e2 ▸ hv, e2 ▸ ev⟩)
  · exact form_group hh

theorem form_prefix {O P PE : List String} {hd : String} {inc exc : List String} :
    ∀ c ∈ prefixCond hd inc exc, ProtoForm O P PE c := by
  unfold prefixCond
  rw [forall_opt]
  exact fun _ => form_block

/-- The protocol conditions of a printed Juniper term have the pruned and renamed protocol lists as values. -/
theorem form_render {platform : String} {ty : TType} {dsmo : Bool} {j j' : JTerm} {i : Bool} {n : Str} {cs : List Cond}
    {a : Option (Bool × List (List Tok))}
    (h : Juniper.renderTerm platform ty dsmo j = .ok (some (.term i n (.normal (some cs) a)), j')) :
    ∀ c ∈ cs, ProtoForm j.term.option (replaceFirst "icmpv6" "icmp6" (pruneIcmp ty j.term.protocol))
      (replaceFirst "icmpv6" "icmp6" j.term.protocolExcept) c := by
  unfold Juniper.renderTerm at h
  split at h
  · cases h
  · dsimp only at h
    split at h
    · cases h
    · split at h
      · cases h
      · obtain ⟨os, ho, h⟩ := bind_ok h
        unfold printTerm at h
        dsimp only at h
        split at h
        · cases h
        · split at h
          · obtain ⟨ac, hac, h⟩ := bind_ok h
            cases ac with
            | none => cases h
            | some ac =>
              dsimp only at h
              obtain ⟨rc, hrc, h⟩ := bind_ok h
              obtain ⟨th, _, h⟩ := bind_ok h
              simp only [Except.ok.injEq, Prod.mk.injEq, Option.some.injEq, Out.term.injEq, Body.normal.injEq] at h
              obtain ⟨⟨_, _, rfl, _⟩, _⟩ := h
              unfold restConds at hrc
              obtain ⟨ic, hic, hrc⟩ := bind_ok hrc
              obtain ⟨pc, hpc, hrc⟩ := bind_ok hrc
              cases hrc
              simp only [forall_app]
              refine ⟨form_addrs hac, ?_, ?_, ?_, ?_, ?_, ?_, ?_⟩
              · unfold conds1
                simp only [forall_app, forall_opt]
                refine ⟨?_, ?_, form_prefix, form_prefix, ?_, ?_, ?_, ?_⟩ <;> intro _ <;>
                  first | exact form_group (by decide) | exact form_head (by decide)
              · intro c hc
                obtain ⟨l, hl, rfl⟩ := List.mem_map.1 hc
                exact form_options ho (fun _ h => h) (by simp) l hl
              · unfold conds2
                simp only [forall_app, forall_opt]
                exact ⟨fun _ => form_head (by decide), fun _ => form_head (by decide)⟩
              · unfold icmpCond at hic
                split at hic
                · cases hic; simp
                · obtain ⟨_, _, hic⟩ := bind_ok hic
                  cases hic
                  intro c hc
                  rw [List.mem_singleton.1 hc]
                  exact form_group (by decide)
              · unfold conds3
                simp only [forall_app, forall_opt]
                refine ⟨fun _ => form_group (by decide), fun _ => form_group (by decide), fun hl => form_proto hl ?_,
                  fun hl => form_proto hl ?_, fun _ => form_group (by decide)⟩
                · cases ty
                  · exact .inr (.inr (by decide))
                  · exact .inl ⟨rfl, rfl⟩
                  · exact .inr (.inr (by decide))
                · cases ty
                  · exact .inr (.inr (by decide))
                  · exact .inr (.inl ⟨rfl, rfl⟩)
                  · exact .inr (.inr (by decide))
              · unfold precCond at hpc
                split at hpc
                · cases hpc; simp
                · obtain ⟨_, _, hpc⟩ := bind_ok hpc
                  cases hpc
                  intro c hc
                  rw [List.mem_singleton.1 hc]
                  exact form_group (by decide)
              · unfold conds4 bracketed
                simp only [forall_app, forall_opt]
                refine ⟨fun _ => form_head ?_, fun _ => form_head ?_, fun _ => form_head (by decide), fun _ => form_block⟩
                · split <;> decide
                · split <;> decide
          · obtain ⟨_, _, h⟩ := bind_ok h
            cases h

end JuniperEvo
end Verif
