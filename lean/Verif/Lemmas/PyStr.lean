import Verif.Spec.Naming
import Verif.Model.Naming
import Verif.Lemmas.Sort

/-! Lemmas about the string operations. -/

namespace Verif
namespace PyStr
open Spec

theorem dropWhile_none {α : Type} {p : α → Bool} : ∀ {l : List α}, (∀ x ∈ l, p x = false) → l.dropWhile p = l
  | [], _ => rfl
  | x :: xs, h => by rw [List.dropWhile_cons, h x (List.mem_cons_self ..)]; rfl

theorem takeWhile_all {α : Type} {p : α → Bool} : ∀ {l : List α}, (∀ x ∈ l, p x = true) → l.takeWhile p = l
  | [], _ => rfl
  | x :: xs, h => by
    rw [List.takeWhile_cons, h x (List.mem_cons_self ..)]
    simp [takeWhile_all (fun y hy => h y (List.mem_cons_of_mem _ hy))]

theorem strip_nospace {s : Str} (h : ∀ c ∈ s, isSpace c = false) : strip s = s := by
  unfold strip lstrip rstrip
  rw [dropWhile_none h, dropWhile_none (fun x hx => h x (by simpa using hx)), List.reverse_reverse]

theorem isSpace_blank : isSpace ' ' = true := by decide

theorem strip_trailing {s : Str} (hne : s ≠ []) (h : ∀ c ∈ s, isSpace c = false) : strip (s ++ [' ']) = s := by
  unfold strip lstrip rstrip
  have h1 : (s ++ [' ']).dropWhile isSpace = s ++ [' '] := by
    obtain ⟨x, xs, rfl⟩ := List.exists_cons_of_ne_nil hne
    rw [List.cons_append, List.dropWhile_cons, h x (List.mem_cons_self ..)]; rfl
  rw [h1, List.reverse_append]
  simp only [List.reverse_cons, List.reverse_nil, List.nil_append, List.cons_append]
  rw [List.dropWhile_cons, isSpace_blank]
  simp only [if_true]
  rw [dropWhile_none (fun x hx => h x (by simpa using hx)), List.reverse_reverse]

theorem before_none {c : Char} {s : Str} (h : c ∉ s) : before c s = s := by
  unfold before
  exact takeWhile_all (fun x hx => by rw [bne_iff_ne]; rintro rfl; exact h hx)

theorem before_app {c : Char} {s t : Str} (h : c ∉ s) : before c (s ++ c :: t) = s := by
  unfold before
  induction s with
  | nil => simp
  | cons x xs ih =>
    have hx : x ≠ c := fun e => h (e ▸ List.mem_cons_self ..)
    simp only [List.cons_append, List.takeWhile_cons]
    have : (x != c) = true := by simpa using hx
    rw [this]; simp only [if_true]
    rw [ih (fun hh => h (List.mem_cons_of_mem _ hh))]

theorem after_app {c : Char} {s t : Str} (h : c ∉ s) : after c (s ++ c :: t) = t := by
  unfold after
  induction s with
  | nil => simp
  | cons x xs ih =>
    have hx : x ≠ c := fun e => h (e ▸ List.mem_cons_self ..)
    simp only [List.cons_append, List.dropWhile_cons]
    have : (x != c) = true := by simpa using hx
    rw [this]; simp only [if_true]
    exact ih (fun hh => h (List.mem_cons_of_mem _ hh))

theorem wordsAux_nospace {s : Str} (h : ∀ c ∈ s, isSpace c = false) (acc : Str) :
    wordsAux acc s = if (acc.reverse ++ s).isEmpty then [] else [acc.reverse ++ s] := by
  induction s generalizing acc with
  | nil =>
    simp only [wordsAux, List.append_nil]
    cases acc <;> simp
  | cons c cs ih =>
    rw [wordsAux, h c (List.mem_cons_self ..), if_neg (by simp)]
    rw [ih (fun x hx => h x (List.mem_cons_of_mem _ hx))]
    simp

theorem words_word {s : Str} (hne : s ≠ []) (h : ∀ c ∈ s, isSpace c = false) : words s = [s] := by
  unfold words
  rw [wordsAux_nospace h]
  simp [hne]

end PyStr

namespace Naming
open Spec PyStr

theorem headTok_word {v : Str} (h : Word v) : headTok v = some v := by
  unfold headTok
  rw [before_none (fun hh => (h.2 _ hh).2 rfl), words_word h.1 (fun c hc => (h.2 c hc).1)]
  rfl

theorem itemTok_item {i v : Str} (h : IsItem i v) : itemTok i = v := by
  obtain ⟨hw, hi⟩ := h
  have hn : '#' ∉ v := fun hh => (hw.2 _ hh).2 rfl
  unfold itemTok
  rcases hi with rfl | ⟨c, rfl⟩
  · rw [before_none hn, strip_nospace (fun c hc => (hw.2 c hc).1)]
  · have : v ++ " # ".toList ++ c = (v ++ [' ']) ++ '#' :: (' ' :: c) := by
      simp
    rw [this, before_app (by simp [hn]), strip_trailing hw.1 (fun c hc => (hw.2 c hc).1)]

theorem IsItem.word {i v : Str} (h : IsItem i v) : Word v := h.1

theorem isItem_unique {i v w : Str} (h : IsItem i v) (h' : IsItem i w) : v = w := by
  rw [← itemTok_item h, ← itemTok_item h']

theorem tokenRe_address {ip : Str → Option Net} (hip : DotOrColon ip) {v : Str} {a : Net} (h : ip v = some a) :
    tokenRe v = false := by
  unfold tokenRe
  have : ∃ c ∈ v, tokenChar c = false := by
    rcases hip v a h with hh | hh
    · exact ⟨_, hh, by decide⟩
    · exact ⟨_, hh, by decide⟩
  obtain ⟨c, hc, h1⟩ := this
  rw [Bool.and_eq_false_iff]
  right
  rw [List.all_eq_false]
  exact ⟨c, hc, by simp [h1]⟩

end Naming
end Verif

namespace Verif
namespace PyStr

theorem strLt_irrefl : ∀ a : Str, strLt a a = false
  | [] => rfl
  | c :: cs => by simp [strLt, strLt_irrefl cs]

theorem strLt_trans : ∀ {a b c : Str}, strLt a b = true → strLt b c = true → strLt a c = true
  | [], [], _, h, _ => by cases h
  | [], _ :: _, [], _, h => by cases h
  | [], _ :: _, _ :: _, _, _ => rfl
  | _ :: _, [], _, h, _ => by cases h
  | _ :: _, _ :: _, [], _, h => by cases h
  | a :: as, b :: bs, c :: cs, h1, h2 => by
    simp only [strLt, Bool.or_eq_true, decide_eq_true_eq, Bool.and_eq_true, beq_iff_eq] at *
    rcases h1 with h1 | ⟨rfl, h1⟩
    · rcases h2 with h2 | ⟨rfl, h2⟩
      · left; omega
      · left; exact h1
    · rcases h2 with h2 | ⟨rfl, h2⟩
      · left; exact h2
      · right; exact ⟨rfl, strLt_trans h1 h2⟩

theorem strLt_tri : ∀ (a b : Str), strLt a b = true ∨ a = b ∨ strLt b a = true
  | [], [] => .inr (.inl rfl)
  | [], _ :: _ => .inl rfl
  | _ :: _, [] => .inr (.inr rfl)
  | a :: as, b :: bs => by
    simp only [strLt, Bool.or_eq_true, decide_eq_true_eq, Bool.and_eq_true, beq_iff_eq]
    rcases Nat.lt_trichotomy a.toNat b.toNat with h | h | h
    · exact .inl (.inl h)
    · have : a = b := Char.toNat_inj.1 h
      subst this
      rcases strLt_tri as bs with h1 | h1 | h1
      · exact .inl (.inr ⟨rfl, h1⟩)
      · exact .inr (.inl (by rw [h1]))
      · exact .inr (.inr (.inr ⟨rfl, h1⟩))
    · exact .inr (.inr (.inl h))

theorem strLt_asymm {a b : Str} (h : strLt a b = true) : strLt b a = false := by
  cases hb : strLt b a with
  | false => rfl
  | true => have := strLt_trans h hb; rw [strLt_irrefl] at this; cases this

theorem strLe_pre : TotalPre (fun a b : Str => !strLt b a) where
  total a b := by
    rcases strLt_tri a b with h | rfl | h
    · left; simp [strLt_asymm h]
    · left; simp [strLt_irrefl]
    · right; simp [strLt_asymm h]
  trans {a b c} h1 h2 := by
    simp only [Bool.not_eq_true'] at *
    cases hc : strLt c a with
    | false => rfl
    | true =>
      rcases strLt_tri b c with h | rfl | h
      · have := strLt_trans h hc; rw [this] at h1; cases h1
      · rw [hc] at h1; cases h1
      · rw [h] at h2; cases h2

theorem nodup_eraseDups {α : Type} [BEq α] [LawfulBEq α] (l : List α) : l.eraseDups.Nodup := by
  induction hn : l.length using Nat.strongRecOn generalizing l with
  | ind n ih =>
    cases l with
    | nil => simp
    | cons a as =>
      rw [List.eraseDups_cons, List.nodup_cons]
      constructor
      · rw [List.mem_eraseDups, List.mem_filter]
        simp
      · refine ih _ ?_ _ rfl
        subst hn
        exact Nat.lt_of_le_of_lt (List.length_filter_le _ _) (by simp)

theorem mem_sortedSet {l : List Str} {v : Str} : v ∈ sortedSet l ↔ v ∈ l := by
  unfold sortedSet
  rw [mem_isort, List.mem_eraseDups]

theorem sortedSet_sorted (l : List Str) : (sortedSet l).Pairwise (fun a b => strLt a b = true) := by
  unfold sortedSet
  have h1 := isort_sorted strLe_pre l.eraseDups
  have h2 : (isort (fun a b => !strLt b a) l.eraseDups).Nodup :=
    (isort_perm _ _).nodup_iff.2 (nodup_eraseDups l)
  refine List.Pairwise.imp₂ ?_ h1 h2
  intro a b h3 h4
  rcases strLt_tri a b with h | h | h
  · exact h
  · exact absurd h h4
  · simp [h] at h3

end PyStr
end Verif
