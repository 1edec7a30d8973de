import Verif.Lemmas.PolicyLex

/-!
The lexer reads every text as tokens, illegal characters, blanks and comments.
-/

namespace Verif
namespace PolicyText
open Spec PyStr

theorem split_at {s a b : Str} {k : Nat} (h : s = a ++ b) (hk : k = a.length) : s.take k = a ∧ s.drop k = b := by
  subst h hk
  exact ⟨List.take_left, List.drop_left⟩

theorem word_start {c : Char} (h : isWord c = true) (h' : isDigit c = false) : c.isAlpha = true ∨ c = '_' := by
  simp only [isWord, Bool.or_eq_true, h', Bool.false_eq_true, or_false, alpha_iff, beq_iff_eq] at h
  exact h

theorem formed_wordTok {w : Str} (h : WrittenName w) : Formed (wordTok w) ∧ spelled (wordTok w) = w := by
  unfold wordTok
  split
  · rename_i hh
    exact ⟨.inl (by simpa using hh), rfl⟩
  · split
    · rename_i hh
      exact ⟨(reserved_iff w).1 hh, rfl⟩
    · rename_i hh
      exact ⟨⟨h, fun hk => hh ((reserved_iff w).2 hk)⟩, rfl⟩

theorem lex_reads_aux (n : Nat) : ∀ (s : Str) (prev : Bool), s.length ≤ n → Reads s (lexFrom prev s) := by
  induction n with
  | zero =>
    intro s prev h
    cases s with
    | nil => rw [lexFrom]; exact .nil
    | cons c s => simp at h
  | succ n ih =>
    intro s prev h
    cases s with
    | nil => rw [lexFrom]; exact .nil
    | cons c cs =>
      simp only [List.length_cons, Nat.add_le_add_iff_right] at h
      have ihs : ∀ p s, cs = p ++ s → ∀ b, Reads s (lexFrom b s) := by
        intro p s e b
        refine ih s b ?_
        rw [e, List.length_append] at h
        omega
      rcases Classical.em (c = ' ') with rfl | h1
      · rw [step_blank (.inl rfl)]; exact .blank (.inl rfl) (ih _ _ h)
      rcases Classical.em (c = '\t') with rfl | h2
      · rw [step_blank (.inr rfl)]; exact .blank (.inr (.inl rfl)) (ih _ _ h)
      rcases Classical.em (c = '#') with rfl | h3
      · rcases run_spec (· != '\n') cs with ⟨r, e1, e2, e3, e4⟩
        have hb : '\n' ∉ cs.take (run (· != '\n') cs) := fun hh => by simpa using e2 _ hh
        have he : r = [] ∨ ∃ s', r = '\n' :: s' := by
          cases r with
          | nil => exact .inl rfl
          | cons d r =>
            have := e3 d r rfl
            simp only [bne_eq_false_iff_eq] at this
            exact .inr ⟨r, by rw [this]⟩
        rcases step_note (prev := prev) hb he with ⟨b, hl⟩
        rw [e1, hl]
        exact .note hb he (ihs _ _ e1 b)
      rcases Classical.em (c = '\n') with rfl | h5
      · rw [step_newline]; exact .blank (.inr (.inr rfl)) (ih _ _ h)
      rcases Classical.em (c = '"') with rfl | h4
      · have hstep : step prev '"' cs =
            (match escLen false cs with
            | some n => (some (.tok (.escaped ('"' :: cs.take n))), n)
            | none =>
              if cs.contains '"' then
                (some (.tok (.quoted ('"' :: cs.take (run (· != '"') cs + 1)))), run (· != '"') cs + 1)
              else (some (.illegal '"'), 0)) := rfl
        cases he : escLen false cs with
        | some m =>
          rcases esc_of_len he with ⟨body, r, rfl, hb, rfl, hq⟩
          have hq : '"' ∈ body := by simpa using hq
          rw [step_escaped hb hq]
          have := Reads.tok (t := .escaped ('"' :: (body ++ ['"']))) ⟨body, rfl, hb, hq⟩
            (ihs (body ++ ['"']) r (by simp) false)
          simpa [spelled] using this
        | none =>
          rw [he] at hstep
          cases hc : cs.contains '"' with
          | true =>
            simp only [hc, if_true] at hstep
            rcases run_spec (· != '"') cs with ⟨r, e1, e2, e3, e4⟩
            have hm : '"' ∈ cs := by simpa using hc
            cases r with
            | nil =>
              rw [e1] at hm
              simp only [List.append_nil] at hm
              exact absurd (e2 _ hm) (by simp)
            | cons d r =>
              have hd := e3 d r rfl
              simp only [bne_eq_false_iff_eq] at hd
              subst hd
              have hlen : (cs.take (run (· != '"') cs)).length = run (· != '"') cs := by
                rw [List.length_take]
                exact Nat.min_eq_left (List.takeWhile_prefix _).length_le
              have e5 : cs = (cs.take (run (· != '"') cs) ++ ['"']) ++ r := by
                conv => lhs; rw [e1]
                simp
              have e6 := split_at (k := run (· != '"') cs + 1) e5 (by rw [List.length_append, hlen]; rfl)
              have hb : '"' ∉ cs.take (run (· != '"') cs) := fun hh => by simpa using e2 _ hh
              rw [lex_step hstep]
              rw [e6.2, e6.1]
              have := Reads.tok (t := .quoted ('"' :: (cs.take (run (· != '"') cs) ++ ['"']))) ⟨_, rfl, hb⟩
                (ihs _ _ e5 (isWord (('"' :: cs).getD (run (· != '"') cs + 1) ' ')))
              have e8 : '"' :: cs = spelled (.quoted ('"' :: (cs.take (run (· != '"') cs) ++ ['"']))) ++ r := by
                show '"' :: cs = '"' :: ((cs.take (run (· != '"') cs) ++ ['"']) ++ r)
                rw [← e5]
              exact e8 ▸ this
          | false =>
            simp only [hc, Bool.false_eq_true, if_false] at hstep
            rw [lex_step hstep]
            exact .illegal (by decide) (by decide) (fun _ hh => by rw [List.contains_iff_mem.2 hh] at hc; cases hc)
              (ih _ _ (by simpa using h))
      · have hstep := step_body (prev := prev) (cs := cs) h1 h2 h3 h4 h5
        cases hr : (if prev then none else rangeLen (c :: cs)) with
        | some m =>
          rw [hr] at hstep
          have hpr : prev = false := by cases prev with
            | false => rfl
            | true => simp at hr
          subst hpr
          simp only [Bool.false_eq_true, if_false] at hr
          rcases range_of_len hr with ⟨d, d', r, hd, hd', e, rfl, hw⟩
          rcases step_range hd hd' hw (prev := false) (fun hh => by cases hh) with ⟨b, hl⟩
          rw [e, hl]
          have e' : d ++ '-' :: (d' ++ r) = spelled (.range (d ++ '-' :: d')) ++ r := by simp [spelled]
          rw [e']
          refine .tok ⟨d, d', rfl, hd, hd'⟩ (ih r b ?_)
          have hl := congrArg List.length e
          simp at hl; omega
        | none =>
          rw [hr] at hstep
          simp only at hstep
          cases hdd : (if prev then none else dscpLen (c :: cs)) with
          | some m =>
            have hpr : prev = false := by cases prev with
              | false => rfl
              | true => simp at hdd
            subst hpr
            simp only [Bool.false_eq_true, if_false] at hdd
            rcases dscp_of_len hdd with ⟨d, r, hd, e, rfl, hw⟩
            rcases step_dscp hd hw (prev := false) (fun hh => by cases hh) with ⟨b, hl⟩
            rw [e, hl]
            have e' : d ++ r = spelled (.dscp d) ++ r := rfl
            rw [e']
            refine .tok hd (ih r b ?_)
            rcases class_cons hd with ⟨x, xs, rfl, _⟩
            have hl := congrArg List.length e
            simp at hl; omega
          | none =>
            rw [hdd] at hstep
            simp only at hstep
            split at hstep
            · rename_i hx
              simp only [Bool.and_eq_true, beq_iff_eq, bne_iff_ne, ne_eq] at hx
              rcases hx with ⟨⟨rfl, hx⟩, hn⟩
              cases cs with
              | nil => cases hx
              | cons x cs =>
                simp only [List.head?_cons, Option.some.injEq] at hx
                subst hx
                simp only [List.drop_succ_cons, List.drop_zero] at hstep hn
                rcases run_spec isHex cs with ⟨r, e1, e2, e3, e4⟩
                have e5 : ('x' :: cs).take (1 + run isHex cs) = 'x' :: cs.take (run isHex cs) := by
                  rw [Nat.add_comm, List.take_succ_cons]
                have e6 : ('x' :: cs).drop (1 + run isHex cs) = r := by
                  rw [Nat.add_comm, List.drop_succ_cons, e4]
                rw [lex_step hstep, e5, e6]
                have e7 : '0' :: 'x' :: cs = spelled (.hex ('0' :: 'x' :: cs.take (run isHex cs))) ++ r := by
                  show _ = '0' :: 'x' :: (cs.take (run isHex cs) ++ r)
                  rw [← e1]
                have hf : Formed (.hex ('0' :: 'x' :: cs.take (run isHex cs))) := by
                  refine .inr ⟨_, rfl, ?_, fun c hc => (hex_iff c).1 (e2 c hc)⟩
                  intro hh
                  have := congrArg List.length hh
                  have hm : run isHex cs ≤ cs.length := (List.takeWhile_prefix _).length_le
                  rw [List.length_take, Nat.min_eq_left hm] at this
                  exact hn this
                have hrr := Reads.tok hf (ihs ('x' :: cs.take (run isHex cs)) r (by rw [List.cons_append, ← e1])
                  (isWord (('0' :: 'x' :: cs).getD (1 + run isHex cs) ' ')))
                exact e7 ▸ hrr
            · split at hstep
              · rename_i hd
                rcases run_spec isDigit cs with ⟨r, e1, e2, e3, e4⟩
                rw [lex_step hstep, e4]
                have e7 : c :: cs = spelled (.int (c :: cs.take (run isDigit cs))) ++ r := by
                  show _ = c :: (cs.take (run isDigit cs) ++ r)
                  rw [← e1]
                have hf : Formed (.int (c :: cs.take (run isDigit cs))) := by
                  refine ⟨by simp, fun x hx => ?_⟩
                  rcases List.mem_cons.1 hx with rfl | hx
                  · exact (digit_iff _).1 hd
                  · exact (digit_iff _).1 (e2 x hx)
                have hrr := Reads.tok hf (ihs _ _ e1 (isWord ((c :: cs).getD (run isDigit cs) ' ')))
                exact e7 ▸ hrr
              · rename_i hnd
                split at hstep
                · rename_i hw
                  rcases run_spec isName cs with ⟨r, e1, e2, e3, e4⟩
                  rw [lex_step hstep, e4]
                  have hn : WrittenName (c :: cs.take (run isName cs)) :=
                    ⟨c, _, rfl, word_start hw (by simpa using hnd), fun d hd => (name_iff d).1 (e2 d hd)⟩
                  have hf := formed_wordTok hn
                  have e7 : c :: cs = spelled (wordTok (c :: cs.take (run isName cs))) ++ r := by
                    rw [hf.2, List.cons_append, ← e1]
                  have hrr := Reads.tok hf.1 (ihs _ _ e1 (isWord ((c :: cs).getD (run isName cs) ' ')))
                  exact e7 ▸ hrr
                · rename_i hw
                  split at hstep
                  · rename_i hsg
                    rw [step_sign hsg]
                    exact Reads.tok (t := .sign c) (by simpa [isSign, Formed] using hsg) (ih _ _ h)
                  · rename_i hsg
                    rw [lex_step hstep]
                    refine .illegal (fun hh => hw ((word_iff c).2 hh)) ?_ (fun hh => absurd hh h4) (ih _ _ (by simpa using h))
                    simp only [isSign, List.contains_iff_mem] at hsg
                    simp only [List.mem_cons, List.not_mem_nil, or_false, not_or] at hsg ⊢
                    exact ⟨h1, h2, h5, h3, hsg⟩

theorem lex_reads (s : Str) : Reads s (lex s) := lex_reads_aux s.length s false (Nat.le_refl _)

end PolicyText
end Verif
