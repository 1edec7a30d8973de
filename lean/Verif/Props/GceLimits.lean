import Verif.Props.Gce

/-!
Properties of the model of capirca/lib/gce.py: C80 (sizes), C81 (names), C82 (descriptions).
-/

namespace Verif.Props
open Verif Verif.Spec Verif.Spec.Gce Verif.Gce Policy Aclgenerator Nacaddr

/-- Rules come from passes. -/
theorem termsLoop_pass {c : Ctx} {limit : Nat} {vs : List Ver} {gs : List GTerm} {names header : List Str} {n : Nat} {o : Out}
    (h : termsLoop c limit vs names header n gs = .ok o) {r : Rule} (hr : r ∈ o.rules) : ∃ g ∈ gs, ∃ v ∈ vs, ∃ t name desc ps rs,
    convert c v g t name desc ps = .ok rs ∧ r ∈ rs ∧ desc.length ≤ 2047 := by
  obtain ⟨bs, e1, e2, e3⟩ := termsLoop_blocks h
  rw [e1] at hr
  obtain ⟨b, hb, hr⟩ := List.mem_flatMap.1 hr
  have hbg : b.1 ∈ gs := by rw [← e2]; exact List.mem_map.2 ⟨b, hb, rfl⟩
  rcases e3 b hb with ⟨_, e⟩ | ⟨y1, name, hdr, n', o', _, y3, y4⟩
  · rw [e] at hr; cases hr
  · by_cases hl : Live b.1
    · rw [← y4] at hr
      obtain ⟨_, comment, o1, h1, e⟩ := oneTerm_live y3 hl
      rw [← e] at hr
      obtain ⟨v, hv, t0, t', cm, ps', rs, _, _, _, h7, h8⟩ := famLoop_mem h1 r hr
      refine ⟨b.1, hbg, v, hv, t', name, _, ps', rs, h7, h8, ?_⟩
      unfold describe
      rw [List.length_take]
      omega
    · rw [← y4, oneTerm_dead y3 y1 hl] at hr
      cases hr

theorem filtersLoop_pass : ∀ {fs : List Filter} {limit n : Nat} {rs : List Rule}, filtersLoop limit n fs = .ok rs → ∀ r ∈ rs,
    ∃ c v g t name desc ps rs', convert c v g t name desc ps = .ok rs' ∧ r ∈ rs' ∧ desc.length ≤ 2047
  | [], _, _, _, h, _, hr => by cases h; cases hr
  | f :: fs, limit, n, rs, h, r, hr => by
    rw [filtersLoop] at h
    split at h
    · cases h
    · obtain ⟨o, h1, h⟩ := bind_ok h
      obtain ⟨rs', h2, h⟩ := bind_ok h
      cases h
      rcases List.mem_append.1 hr with hr | hr
      · obtain ⟨g, _, v, _, x⟩ := termsLoop_pass h1 hr
        exact ⟨_, v, g, x⟩
      · exact filtersLoop_pass h2 r hr

theorem convert_limits {c : Ctx} {v : Ver} {g : GTerm} {t : Term} {name desc : Str} {ps : List Proto} {rs : List Rule}
    (h : convert c v g t name desc ps = .ok rs) (hd : desc.length ≤ 2047) {r : Rule} (hr : r ∈ rs) : WithinLimits r := by
  have hranges : r.sourceRanges = [] ∨ r.destinationRanges = [] := by
    unfold convert at h
    split at h
    · cases h
    · split at h
      · cases h; cases hr
      · split at h
        · cases h; cases hr
        · split at h
          · cases h; cases hr
          · obtain ⟨_, action, _, rfl, _⟩ := convertRest_ok h
            obtain ⟨nm, s, d, rfl, hh⟩ := split_mem hr
            rcases hh with ⟨rfl, _⟩ | ⟨_, rfl⟩ | ⟨rfl, _⟩
            · exact .inl rfl
            · exact .inr rfl
            · exact .inl rfl
  obtain ⟨action, nm, s, d, _, rfl, h1, h2, h3, h4, h5, h6⟩ := convert_mem h hr
  unfold tooMany at h4
  simp only [Bool.or_eq_false_iff, decide_eq_false_iff_not, Nat.not_lt, Bool.and_eq_false_iff, Bool.not_eq_false',
    List.isEmpty_iff] at h4
  obtain ⟨⟨⟨⟨t1, t2⟩, t3⟩, t4⟩, t5⟩ := h4
  have le1 : ∀ l : List String, (l.filter fun s => s != "").length ≤ l.length := fun l => List.length_filter_le _ _
  have no : ∀ l : List String, "" ∉ l.filter fun s => s != "" := fun l h => by simp at h
  refine ⟨h3, hd, h1, h2, ?_, ?_, t3, t4, ⟨?_, ?_⟩, hranges, ?_, ?_⟩
  · simp only [protoDict, sourceTags]
    split
    · exact Nat.le_trans (le1 _) t1
    · simp
  · simp only [protoDict, targetTags]
    split
    · have := Nat.le_trans (le1 _) t1; omega
    · split
      · exact Nat.le_trans (le1 _) t2
      · simp
  · simpa [protoDict] using h6
  · intro e he
    obtain ⟨q, _, rfl⟩ := List.mem_map.1 he
    exact h5
  · simp only [protoDict]
    rcases t5 with t5 | t5
    · exact .inr t5
    · exact .inl t5
  · simp only [protoDict, sourceTags, targetTags, List.mem_append, not_or]
    constructor
    · split
      · exact no _
      · simp
    · split
      · exact no _
      · split
        · exact no _
        · simp

/-- C80: the rules of every policy that is translated are within the limits of the firewall. -/
theorem C80_limits {fs : List Filter} {rs : List Rule} (h : translate fs = .ok rs) {r : Rule} (hr : r ∈ rs) : WithinLimits r := by
  obtain ⟨c, v, g, t, name, desc, ps, rs', h1, h2, h3⟩ := filtersLoop_pass h r hr
  exact convert_limits h1 h3 h2

/-! ### the quota -/

/-- The counter after some rules. -/
def Counted (limit n m : Nat) (rs : List Rule) : Prop := m = n + (rs.map attributeCount).sum ∧ (n ≤ limit → limit ≠ 0 → m ≤ limit)

theorem counted_nil {limit n : Nat} : Counted limit n n [] := ⟨by simp, fun h _ => h⟩

theorem counted_append {limit n m k : Nat} {rs qs : List Rule} (h1 : Counted limit n m rs) (h2 : Counted limit m k qs) :
    Counted limit n k (rs ++ qs) :=
  ⟨by rw [h2.1, h1.1, List.map_append, List.sum_append]; omega, fun h h' => h2.2 (h1.2 h h') h'⟩

theorem counted_adds {limit n m : Nat} {rs : List Rule} (h : addCounts limit n rs = .ok m) : Counted limit n m rs := by
  obtain ⟨h1, h2⟩ := addCounts_ok h
  refine ⟨h1, fun hn h0 => ?_⟩
  rcases h2 with rfl | h2 | h2
  · rw [h1]; simpa using hn
  · exact absurd h2 h0
  · exact h2

theorem counted_fam {c : Ctx} {limit : Nat} {g : GTerm} {name : Str} : ∀ {vs : List Ver} {t : Term} {ps : List Proto}
    {comment : List Str} {n : Nat} {o : Out}, famLoop c limit g name vs t ps comment n = .ok o → Counted limit n o.count o.rules
  | [], _, _, _, _, _, h => by cases h; exact counted_nil
  | v :: vs, t, ps, comment, n, o, h => by
    rw [famLoop] at h
    obtain ⟨q, _, h⟩ := bind_ok h
    obtain ⟨rs, _, h⟩ := bind_ok h
    obtain ⟨m, h1, h⟩ := bind_ok h
    obtain ⟨o', h2, h⟩ := bind_ok h
    cases h
    exact counted_append (counted_adds h1) (counted_fam h2)

theorem counted_one {c : Ctx} {limit : Nat} {vs : List Ver} {header : List Str} {n : Nat} {g : GTerm} {name : Str} {o : Out}
    (h : oneTerm c limit vs header n g name = .ok o) : Counted limit n o.count o.rules := by
  unfold oneTerm at h
  split at h
  · cases h; exact counted_nil
  · split at h
    · cases h
    · split at h
      · cases h; exact counted_nil
      · obtain ⟨o', h1, h⟩ := bind_ok h
        cases h
        have := counted_fam h1
        exact this

theorem counted_terms {c : Ctx} {limit : Nat} {vs : List Ver} : ∀ {gs : List GTerm} {names header : List Str} {n : Nat} {o : Out},
    termsLoop c limit vs names header n gs = .ok o → Counted limit n o.count o.rules
  | [], _, _, _, _, h => by cases h; exact counted_nil
  | g :: gs, names, header, n, o, h => by
    rw [termsLoop] at h
    split at h
    · exact counted_terms h
    · obtain ⟨name, _, h⟩ := bind_ok h
      split at h
      · cases h
      · obtain ⟨o1, h1, h⟩ := bind_ok h
        obtain ⟨q, h2, h⟩ := bind_ok h
        cases h
        exact counted_append (counted_one h1) (counted_terms h2)

theorem natOf_repr (n : Nat) : natOf (toString n) = some n := by
  have hl : (toString n).toList = Nat.toDigits 10 n := Nat.toList_repr
  unfold natOf
  rw [hl, if_pos]
  · exact congrArg some ((Nat.ofDigitChars_eq_foldl (b := 10)).symm.trans Nat.ofDigitChars_ten_toDigits)
  · simp only [Bool.and_eq_true, Bool.not_eq_true', List.isEmpty_eq_false_iff, List.all_eq_true]
    exact ⟨Nat.toDigits_ne_nil, fun c hc => Nat.isDigit_of_mem_toDigits (by decide) (by decide) hc⟩

theorem foldl_pick_sub : ∀ {l : List String} {q : String × List String} {s : String}, s ∈ (l.foldl pick q).2 → s ∈ q.2
  | [], _, _, h => h
  | x :: l, q, s, h => by
    have := foldl_pick_sub (l := l) h
    unfold pick at this
    split at this
    · exact List.mem_of_mem_erase this
    · exact this

theorem foldl_pick_keep : ∀ {l : List String} {q : String × List String} {s : String}, s ∈ q.2 → s ∉ l → s ∈ (l.foldl pick q).2
  | [], _, _, h, _ => h
  | x :: l, q, s, h, hn => by
    refine foldl_pick_keep (l := l) ?_ (fun h => hn (List.mem_cons_of_mem _ h))
    unfold pick
    split
    · exact (List.mem_erase_of_ne (by rintro rfl; exact hn (by simp))).2 h
    · exact h

/-- Without a number in the header the limit stays. -/
theorem head_limit_keep {limit : Nat} {f : Filter} (h : ∀ s ∈ f.options, ¬ Number s) : (head limit f).limit = limit := by
  unfold head
  dsimp only
  unfold pickLimit
  split
  · rfl
  next s hs =>
    have h1 := List.find?_some hs
    have h2 := foldl_pick_sub (q := ("INGRESS", f.options)) (foldl_pick_sub (q := ("inet", _)) (List.mem_of_find?_eq_some hs))
    exact absurd (natOf_iff.1 h1) (h s h2)

/-- A number in the header is the limit. -/
theorem head_limit_set {limit N : Nat} {f : Filter} (ho : f.order.Perm ["inet", "inet6", "mixed"])
    (h : toString N ∈ f.options) (hu : ∀ s ∈ f.options, Number s → s = toString N) : (head limit f).limit = N := by
  have hnum : Number (toString N) := natOf_iff.1 (by rw [natOf_repr]; rfl)
  have hne : ∀ s ∈ ["INGRESS", "EGRESS", "inet", "inet6", "mixed"], toString N ≠ s := by
    have key : ∀ s ∈ ["INGRESS", "EGRESS", "inet", "inet6", "mixed"], ¬ (natOf s).isSome = true := by decide
    intro s hs e
    rw [e] at hnum
    exact key s hs (natOf_iff.2 hnum)
  have hin : toString N ∈ (f.order.foldl pick ("inet", (["INGRESS", "EGRESS"].foldl pick ("INGRESS", f.options)).2)).2 := by
    refine foldl_pick_keep (foldl_pick_keep h fun h => ?_) fun h => ?_
    · exact hne _ (List.mem_append_left ["inet", "inet6", "mixed"] h) rfl
    · rw [ho.mem_iff] at h
      exact hne _ (List.mem_append_right ["INGRESS", "EGRESS"] h) rfl
  unfold head
  dsimp only
  unfold pickLimit
  split
  next hn =>
    have := List.find?_eq_none.1 hn _ hin
    rw [natOf_repr] at this
    simp at this
  next s hs =>
    have h1 := List.find?_some hs
    have h2 := foldl_pick_sub (q := ("INGRESS", f.options)) (foldl_pick_sub (q := ("inet", _)) (List.mem_of_find?_eq_some hs))
    rw [hu s h2 (natOf_iff.1 h1), natOf_repr]
    rfl

theorem filtersLoop_count {limit : Nat} (h0 : limit ≠ 0) : ∀ {fs : List Filter} {n : Nat} {rs : List Rule},
    (∀ f ∈ fs, ∀ s ∈ f.options, ¬ Number s) → n ≤ limit → filtersLoop limit n fs = .ok rs →
    n + (rs.map attributeCount).sum ≤ limit
  | [], n, rs, _, hn, h => by cases h; simpa using hn
  | f :: fs, n, rs, hf, hn, h => by
    rw [filtersLoop] at h
    split at h
    · cases h
    · dsimp only at h
      rw [head_limit_keep (hf f (by simp))] at h
      obtain ⟨o, h1, h⟩ := bind_ok h
      obtain ⟨rs', h2, h⟩ := bind_ok h
      cases h
      obtain ⟨c1, c2⟩ := counted_terms h1
      have := filtersLoop_count h0 (fun g hg => hf g (List.mem_cons_of_mem _ hg)) (c2 hn h0) h2
      rw [List.map_append, List.sum_append]
      omega

theorem attributes_count {r : Rule} (h : r.sourceRanges = [] ∨ r.destinationRanges = []) : attributeCount r = Attributes r := by
  unfold attributeCount Attributes
  have e : (fun e : Entry => e.ports.length + 1) = fun e => 1 + e.ports.length := by
    funext e
    omega
  rw [e]
  rcases h with h | h
  · by_cases hd : r.destinationRanges = []
    · simp [h, hd]; omega
    · rw [h, if_neg (by simpa using hd)]; simp; omega
  · simp [h]; omega

/-- C80: if the first header states a quota and no other does, the whole output keeps it. -/
theorem C80_quota {f : Filter} {fs : List Filter} {rs : List Rule} {N : Nat} (h : translate (f :: fs) = .ok rs)
    (ho : f.order.Perm ["inet", "inet6", "mixed"]) (h0 : N ≠ 0) (hN : toString N ∈ f.options)
    (hu : ∀ s ∈ f.options, Number s → s = toString N) (hrest : ∀ f' ∈ fs, ∀ s ∈ f'.options, ¬ Number s) :
    (rs.map Attributes).sum ≤ N := by
  have e : rs.map Attributes = rs.map attributeCount :=
    List.map_congr_left fun r hr => (attributes_count (C80_limits h hr).ranges).symm
  rw [e]
  unfold translate at h
  rw [filtersLoop] at h
  split at h
  · cases h
  · dsimp only at h
    rw [head_limit_set ho hN hu] at h
    obtain ⟨o, h1, h⟩ := bind_ok h
    obtain ⟨rs', h2, h⟩ := bind_ok h
    cases h
    obtain ⟨c1, c2⟩ := counted_terms h1
    have := filtersLoop_count h0 hrest (c2 (Nat.zero_le _) h0) h2
    rw [List.map_append, List.sum_append]
    omega

/-! ### names and descriptions -/

theorem fixName_ok {dir : String} {name out : Str} (h : fixName dir name = .ok out) :
    out = name ++ (if dir = "EGRESS" then "-e".toList else []) := by
  unfold fixName at h
  have key : ∀ s : Str, fixTermLength abbreviations 53 s false false = .ok out → out = s := by
    intro s hs
    unfold fixTermLength truncateName at hs
    simp only [Bool.false_eq_true, if_false] at hs
    split at hs
    · exact (Except.ok.inj hs).symm
    · cases hs
  rw [key _ h]
  split <;> simp

theorem lastPart_spec (s : String) : LastPart s.toList (lastPart s) := by
  unfold lastPart LastPart
  constructor
  · intro h
    rw [List.mem_reverse] at h
    have : ∀ {l : List Char} {c}, c ∈ l.takeWhile (fun c => c != '/') → c ≠ '/' := by
      intro l
      induction l with
      | nil => intro c h; cases h
      | cons x xs ih =>
        intro c h
        rw [List.takeWhile_cons] at h
        split at h
        next hx =>
          rcases List.mem_cons.1 h with rfl | h
          · simpa using hx
          · exact ih h
        · cases h
    exact this h rfl
  · have e : s.toList = (s.toList.reverse.dropWhile fun c => c != '/').reverse ++ (s.toList.reverse.takeWhile fun c => c != '/').reverse := by
      rw [← List.reverse_append, List.takeWhile_append_dropWhile, List.reverse_reverse]
    cases hd : s.toList.reverse.dropWhile fun c => c != '/' with
    | nil =>
      rw [hd] at e
      exact .inl e
    | cons x xs =>
      have hx : x = '/' := by
        have := List.head_dropWhile_not (fun c => c != '/') (l := s.toList.reverse) (by rw [hd]; simp)
        simp only [hd, List.head_cons] at this
        simpa using this
      rw [hd, hx] at e
      refine .inr ⟨xs.reverse, e.trans ?_⟩
      simp

theorem joinBlank_text : ∀ l : List Str, joinBlank l = [' '].intercalate l
  | [] => rfl
  | [a] => by simp [joinBlank, List.intercalate]
  | a :: b :: l => by
    rw [joinBlank, joinBlank_text (b :: l)]
    simp [List.intercalate, List.intersperse]

theorem describe_text {g : GTerm} {comment : List Str} : describe (withOwner g comment) = (Text comment g.owner).take 2047 := by
  unfold describe withOwner Text
  rw [joinBlank_text]
  cases g.owner <;> simp

/-- The name of the rule, or of one of the parts, of a term with this name. -/
def PartOf (base : Str) (name : Str) : Prop := name = base ∨ ∃ k : Nat, name = base ++ '-' :: (toString k).toList

theorem digits_no_dash (k : Nat) : '-' ∉ (toString k).toList := by
  have hd : (toString k).toList = Nat.toDigits 10 k := Nat.toList_repr
  rw [hd]
  intro h
  exact absurd (Nat.isDigit_of_mem_toDigits (by decide) (by decide) h) (by decide)

theorem part_split {a b x y : Str} (h : a ++ '-' :: x = b ++ '-' :: y) (hx : '-' ∉ x) (hy : '-' ∉ y) : a = b ∧ x = y := by
  rcases List.append_eq_append_iff.1 h with ⟨z, rfl, e⟩ | ⟨z, rfl, e⟩
  · cases z with
    | nil => exact ⟨by simp, (List.cons.inj e).2⟩
    | cons c z =>
      have := (List.cons.inj e).2
      exact absurd (by rw [this]; simp) hx
  · cases z with
    | nil => exact ⟨by simp, (List.cons.inj e).2.symm⟩
    | cons c z =>
      have := (List.cons.inj e).2
      exact absurd (by rw [this]; simp) hy

theorem numbered_names {put : List Net → Rule → Rule} (hput : ∀ l r, (put l r).name = r.name) {r : Rule} :
    ∀ {i : Nat} {cs : List (List Net)}, ((numbered put true r i cs).map Rule.name).Nodup ∧
      ∀ x ∈ numbered put true r i cs, ∃ k, i < k ∧ x.name = r.name ++ '-' :: (toString k).toList
  | i, [] => by simp [numbered]
  | i, ch :: cs => by
    obtain ⟨h1, h2⟩ := numbered_names hput (r := r) (i := i + 1) (cs := cs)
    rw [numbered]
    refine ⟨?_, ?_⟩
    · rw [List.map_cons, List.nodup_cons]
      refine ⟨?_, h1⟩
      intro hm
      obtain ⟨x, hx, e⟩ := List.mem_map.1 hm
      obtain ⟨k, hk, e2⟩ := h2 x hx
      rw [hput, e2] at e
      have := (part_split e (digits_no_dash _) (digits_no_dash _)).2
      have hd : ∀ k : Nat, Nat.ofDigitChars 10 (toString k).toList 0 = k := fun k => by
        have hd : (toString k).toList = Nat.toDigits 10 k := Nat.toList_repr
        rw [hd]
        exact Nat.ofDigitChars_ten_toDigits
      have := congrArg (Nat.ofDigitChars 10 · 0) this
      simp only [hd] at this
      omega
    · intro x hx
      rcases List.mem_cons.1 hx with rfl | hx
      · exact ⟨i + 1, by omega, hput _ _⟩
      · obtain ⟨k, hk, e⟩ := h2 x hx
        exact ⟨k, by omega, e⟩

theorem numbered_parts {put : List Net → Rule → Rule} (hput : ∀ l r, (put l r).name = r.name) {cs : List (List Net)} {r : Rule} :
    ((numbered put (decide (1 < cs.length)) r 0 cs).map Rule.name).Nodup ∧
      ∀ x ∈ numbered put (decide (1 < cs.length)) r 0 cs, PartOf r.name x.name := by
  match cs with
  | [] => simp [numbered]
  | [c] => exact ⟨by simp [numbered], fun x hx => by
      have : x ∈ [put c r] := hx
      rw [List.mem_singleton.1 this]
      exact .inl (hput _ _)⟩
  | c :: c' :: cs =>
    have : decide (1 < (c :: c' :: cs).length) = true := by simp
    rw [this]
    obtain ⟨h1, h2⟩ := numbered_names hput (r := r) (i := 0) (cs := c :: c' :: cs)
    exact ⟨h1, fun x hx => (h2 x hx).elim fun k hk => .inr ⟨k, hk.2⟩⟩

/-- The rules of a pass over a term are named after it, each differently. -/
theorem convert_names {c : Ctx} {v : Ver} {g : GTerm} {t : Term} {name desc : Str} {ps : List Proto} {rs : List Rule}
    (h : convert c v g t name desc ps = .ok rs) :
    (rs.map Rule.name).Nodup ∧ ∀ r ∈ rs, PartOf (ruleName c v name) r.name ∧ r.description = desc := by
  have hdesc : ∀ r ∈ rs, r.description = desc := by
    intro r hr
    obtain ⟨_, _, _, _, _, rfl, _⟩ := convert_mem h hr
    rfl
  have : (rs.map Rule.name).Nodup ∧ ∀ r ∈ rs, PartOf (ruleName c v name) r.name := by
    unfold convert at h
    split at h
    · cases h
    · split at h
      · cases h; simp
      · split at h
        · cases h; simp
        · split at h
          · cases h; simp
          · obtain ⟨_, action, _, rfl, _⟩ := convertRest_ok h
            unfold split
            split
            · exact numbered_parts (put := putSource) (fun _ _ => rfl)
            · split
              · exact numbered_parts (put := putDestination) (fun _ _ => rfl)
              · exact ⟨by simp, fun r hr => by rw [List.mem_singleton.1 hr]; exact .inl rfl⟩
  exact ⟨this.1, fun r hr => ⟨this.2 r hr, hdesc r hr⟩⟩

theorem ruleName_inj {c : Ctx} {v : Ver} {a b : Str} (h : ruleName c v a = ruleName c v b) : a = b := by
  unfold ruleName at h
  have := List.append_cancel_right h
  split at this
  · exact this
  · exact (List.cons.inj (List.append_cancel_left this)).2

theorem ruleName_spec {c : Ctx} {v : Ver} {name out : Str} (hm : c.mixed = false) (h : fixName c.direction name = .ok out) :
    NameOf c.network c.direction name (ruleName c v out) := by
  rw [fixName_ok h]
  unfold ruleName NameOf
  rw [hm]
  by_cases hn : c.network = ""
  · exact ⟨[], .inl ⟨hn, rfl⟩, by simp [hn]⟩
  · exact ⟨lastPart c.network ++ ['-'], .inr ⟨hn, _, lastPart_spec _, rfl⟩, by simp [hn]⟩

theorem oneTerm_names {c : Ctx} {limit : Nat} {v : Ver} {header : List Str} {n : Nat} {g : GTerm} {name : Str} {o : Out}
    (h : oneTerm c limit [v] header n g name = .ok o) : (o.rules.map Rule.name).Nodup ∧ ∀ r ∈ o.rules,
    (g.reply = false → Live g) ∧ PartOf (ruleName c v name) r.name ∧
      r.description = (Text (if g.comment.isEmpty then header else g.comment) g.owner).take 2047 := by
  unfold oneTerm at h
  split at h
  · cases h; simp
  next h0 =>
    split at h
    · cases h
    · split at h
      · cases h; simp
      next he =>
        obtain ⟨o', h1, h⟩ := bind_ok h
        cases h
        obtain ⟨q, rs, m, o1, g1, g2, g3, g4⟩ := famLoop_cons h1
        cases g3
        rw [List.append_nil] at g4
        obtain ⟨k1, k2⟩ := convert_names g2
        dsimp only
        rw [g4]
        refine ⟨k1, fun r hr => ⟨fun hr => ⟨by simpa using h0, hr, ?_⟩, (k2 r hr).1, (k2 r hr).2.trans describe_text⟩⟩
        unfold elsewhere at he
        simp only [Bool.or_eq_true, Bool.and_eq_true, Bool.not_eq_true', List.isEmpty_eq_false_iff, not_or, not_and,
          List.contains_iff_mem] at he
        refine ⟨?_, fun h2 => ?_⟩
        · by_cases h2 : g.term.platform = []
          · exact .inl h2
          · have := he.1 h2
            simp only [← Bool.not_eq_true, List.contains_iff_mem] at this
            exact .inr (Classical.not_not.1 this)
        · exact he.2 (by rintro e; rw [e] at h2; cases h2) h2

theorem ruleName_append {c : Ctx} {v : Ver} {a s : Str} (hm : c.mixed = false) : ruleName c v a ++ s = ruleName c v (a ++ s) := by
  unfold ruleName
  simp only [hm, Bool.false_and, Bool.false_eq_true, if_false, List.append_nil]
  split <;> simp

/-- Names of rules of different terms differ, unless one is that of a part of the other. -/
theorem part_ne {c : Ctx} {v : Ver} {a b x : Str} (hm : c.mixed = false) (hne : a ≠ b)
    (h1 : ∀ k : Nat, a ≠ b ++ '-' :: (toString k).toList) (h2 : ∀ k : Nat, b ≠ a ++ '-' :: (toString k).toList)
    (ha : PartOf (ruleName c v a) x) (hb : PartOf (ruleName c v b) x) : False := by
  rcases ha with ha | ⟨i, ha⟩ <;> rcases hb with hb | ⟨j, hb⟩
  · exact hne (ruleName_inj (ha.symm.trans hb))
  · rw [ruleName_append hm] at hb
    exact h1 j (ruleName_inj (ha.symm.trans hb))
  · rw [ruleName_append hm] at ha
    exact h2 i (ruleName_inj (hb.symm.trans ha))
  · exact hne (ruleName_inj (part_split (ha.symm.trans hb) (digits_no_dash _) (digits_no_dash _)).1)

theorem termsLoop_names {c : Ctx} {limit : Nat} {v : Ver} (hm : c.mixed = false) :
    ∀ {gs : List GTerm} {names header : List Str} {n : Nat} {o : Out},
    termsLoop c limit [v] names header n gs = .ok o →
    ((∀ g ∈ gs, ∀ g' ∈ gs, ∀ (nm nm' : Str) (k : Nat), fixName c.direction g.term.name = .ok nm →
      fixName c.direction g'.term.name = .ok nm' → nm ≠ nm' ++ '-' :: (toString k).toList) → (o.rules.map Rule.name).Nodup) ∧
    ∀ r ∈ o.rules, ∃ g ∈ gs, ∃ name hdr, fixName c.direction g.term.name = .ok name ∧
      name ∉ names ∧ PartOf (ruleName c v name) r.name ∧ Live g ∧
      r.description = (Text (if g.comment.isEmpty then hdr else g.comment) g.owner).take 2047
  | [], _, _, _, _, h => by cases h; simp
  | g :: gs, names, header, n, o, h => by
    rw [termsLoop] at h
    split at h
    · obtain ⟨h1, h2⟩ := termsLoop_names hm h
      exact ⟨fun hs => h1 fun x hx y hy => hs x (List.mem_cons_of_mem _ hx) y (List.mem_cons_of_mem _ hy),
        fun r hr => (h2 r hr).elim fun g hg => ⟨g, List.mem_cons_of_mem _ hg.1, hg.2⟩⟩
    next hrep =>
      obtain ⟨name, h1, h⟩ := bind_ok h
      split at h
      · cases h
      next hnin =>
        obtain ⟨o1, h2, h⟩ := bind_ok h
        obtain ⟨q, h3, h⟩ := bind_ok h
        cases h
        obtain ⟨k1, k2⟩ := termsLoop_names hm h3
        obtain ⟨e1, e2⟩ := oneTerm_names h2
        dsimp only
        refine ⟨fun hs => ?_, ?_⟩
        · rw [List.map_append, List.nodup_append]
          refine ⟨e1, k1 fun x hx y hy => hs x (List.mem_cons_of_mem _ hx) y (List.mem_cons_of_mem _ hy), ?_⟩
          intro x hx y hy e
          obtain ⟨r, hr, rfl⟩ := List.mem_map.1 hx
          obtain ⟨r', hr', rfl⟩ := List.mem_map.1 hy
          obtain ⟨g', hg', nm, hdr, x1, x2, x3, _⟩ := k2 r' hr'
          have hr := (e2 r hr).2.1
          rw [e] at hr
          exact part_ne hm (fun e => x2 (by rw [e]; simp))
            (fun k => hs g (by simp) g' (List.mem_cons_of_mem _ hg') _ _ k h1 x1)
            (fun k => hs g' (List.mem_cons_of_mem _ hg') g (by simp) _ _ k x1 h1) hr x3
        · intro r hr
          rcases List.mem_append.1 hr with hr | hr
          · obtain ⟨y1, y2, y3⟩ := e2 r hr
            exact ⟨g, by simp, name, header, h1, by simpa using hnin, y2, y1 (by simpa using hrep), y3⟩
          · obtain ⟨g', hg', nm, hdr, x1, x2, x3⟩ := k2 r hr
            exact ⟨g', List.mem_cons_of_mem _ hg', nm, hdr, x1, fun h => x2 (List.mem_cons_of_mem _ h), x3⟩

theorem prepare_mem {dir af : String} : ∀ {gs : List GTerm} {g' : GTerm}, g' ∈ prepare dir af gs →
    ∃ g ∈ gs, g' = g ∨ g' = asDefault dir af g
  | [], _, h => by cases h
  | [g], g', h => by
    rw [prepare, List.mem_singleton] at h
    refine ⟨g, by simp, ?_⟩
    split at h
    · exact .inr h
    · exact .inl h
  | g :: h' :: gs, g', h => by
    rw [prepare] at h
    rcases List.mem_cons.1 h with rfl | h
    · exact ⟨_, by simp, .inl rfl⟩
    · obtain ⟨x, hx, e⟩ := prepare_mem h
      exact ⟨x, List.mem_cons_of_mem _ hx, e⟩

/-- The rules of a filter of one family. -/
theorem filter_names {f : Filter} {rs : List Rule} {d a n : String} (h : translate [f] = .ok rs)
    (ho : f.order.Perm ["inet", "inet6", "mixed"]) (hh : Header f.options d a n) (ha : a ≠ "mixed") :
    ((d = "INGRESS" → ∀ g ∈ f.terms, ∀ g' ∈ f.terms, ∀ k : Nat, g.term.name ≠ g'.term.name ++ '-' :: (toString k).toList) →
      (rs.map Rule.name).Nodup) ∧ ∀ r ∈ rs, ∃ g ∈ f.terms, Live g ∧
      (∃ base, NameOf n d g.term.name base ∧ PartOf base r.name) ∧
      ∃ hdr, r.description = (Text (if g.comment.isEmpty then hdr else g.comment) g.owner).take 2047 := by
  unfold translate at h
  rw [filtersLoop] at h
  split at h
  · cases h
  · dsimp only at h
    obtain ⟨e1, e2, e3⟩ := head_header (limit := 0) hh ho
    obtain ⟨o, h1, h⟩ := bind_ok h
    obtain ⟨rs', h2, h⟩ := bind_ok h
    cases h2
    cases h
    rw [List.append_nil]
    have hv : ∃ v, families a = [v] := by
      unfold families
      rw [if_neg ha]
      split <;> exact ⟨_, rfl⟩
    obtain ⟨v, hv⟩ := hv
    have hmx : (a == "mixed") = false := by simpa using ha
    rw [e1, e2, e3, hv, hmx] at h1
    have same : ∀ g' ∈ prepare d a f.terms, ∃ g ∈ f.terms, g'.term.name = g.term.name ∧ (Live g' ↔ Live g) ∧
        g'.comment = g.comment ∧ g'.owner = g.owner := by
      intro g' hg'
      obtain ⟨g, hg, e⟩ := prepare_mem hg'
      refine ⟨g, hg, ?_⟩
      rcases e with rfl | rfl
      · exact ⟨rfl, Iff.rfl, rfl, rfl⟩
      · refine ⟨?_, live_default, rfl, rfl⟩
        unfold asDefault
        split <;> rfl
    obtain ⟨k1, k2⟩ := termsLoop_names rfl h1
    refine ⟨fun hs => k1 ?_, fun r hr => ?_⟩
    · intro x hx y hy nm nm' k hnm hnm' e
      obtain ⟨g, hg, eg, _⟩ := same x hx
      obtain ⟨g', hg', eg', _⟩ := same y hy
      rw [fixName_ok hnm, fixName_ok hnm', eg, eg'] at e
      dsimp only at e
      by_cases hE : d = "EGRESS"
      · rw [if_pos hE] at e
        have hd : (toString k).toList = Nat.toDigits 10 k := Nat.toList_repr
        rw [hd] at e
        have e : (g.term.name ++ ['-']) ++ ['e'] = (g'.term.name ++ "-e".toList ++ ['-']) ++ Nat.toDigits 10 k := by
          simpa using e
        have hl := congrArg List.getLast? e
        rw [List.getLast?_append (l := g.term.name ++ ['-']),
          List.getLast?_append (l := g'.term.name ++ "-e".toList ++ ['-'])] at hl
        cases hc : (Nat.toDigits 10 k).getLast? with
        | none =>
          rw [List.getLast?_eq_none_iff] at hc
          exact absurd hc (Nat.toDigits_ne_nil)
        | some x =>
          rw [hc] at hl
          have : 'e' = x := by simpa using hl
          subst this
          exact absurd (Nat.isDigit_of_mem_toDigits (by decide) (by decide) (List.mem_of_getLast? hc)) (by decide)
      · rw [if_neg hE, List.append_nil, List.append_nil] at e
        have hI : d = "INGRESS" := by
          have := hh.direction
          split at this
          · exact absurd this hE
          · exact this
        exact hs hI g hg g' hg' k e
    · obtain ⟨g', hg', name, hdr, x1, _, x3, x4, x5⟩ := k2 r hr
      obtain ⟨g, hg, s1, s2, s3, s4⟩ := same g' hg'
      rw [s1] at x1
      rw [s3, s4] at x5
      exact ⟨g, hg, s2.1 x4, ⟨_, ruleName_spec (c := ⟨d, n, false⟩) rfl x1, x3⟩, hdr, x5⟩

/-- C81, for one filter of one family, in which no ingress term is named like a numbered part of another: every rule has the
name of a live term, or that name with a number, and no two rules have the same name. Not proved, and refuted below: the same
for other names and for several filters. -/
theorem C81_names_partial {f : Filter} {rs : List Rule} {d a n : String} (h : translate [f] = .ok rs)
    (ho : f.order.Perm ["inet", "inet6", "mixed"]) (hh : Header f.options d a n) (ha : a ≠ "mixed")
    (hs : d = "INGRESS" → ∀ g ∈ f.terms, ∀ g' ∈ f.terms, ∀ k : Nat, g.term.name ≠ g'.term.name ++ '-' :: (toString k).toList) :
    (rs.map Rule.name).Nodup ∧ ∀ r ∈ rs, ∃ g ∈ f.terms, Live g ∧ ∃ base, NameOf n d g.term.name base ∧
      (r.name = base ∨ ∃ k : Nat, r.name = base ++ '-' :: (toString k).toList) :=
  ⟨(filter_names h ho hh ha).1 hs, fun r hr => by
    obtain ⟨g, h1, h2, h3, _⟩ := (filter_names h ho hh ha).2 r hr
    exact ⟨g, h1, h2, h3⟩⟩

/-- C82, for one filter of one family whose terms have comments: the rule with the name of a term, or with that name and a
number, has the text of its comment. Not proved, and refuted below: the same for terms without comments, and for mixed
filters. -/
theorem C82_descriptions_partial {f : Filter} {rs : List Rule} {d a n : String} (h : translate [f] = .ok rs)
    (ho : f.order.Perm ["inet", "inet6", "mixed"]) (hh : Header f.options d a n) (ha : a ≠ "mixed")
    (hs : ∀ g ∈ f.terms, g.comment ≠ []) : ∀ r ∈ rs, ∃ g ∈ f.terms, Live g ∧
      (∃ base, NameOf n d g.term.name base ∧ (r.name = base ∨ ∃ k : Nat, r.name = base ++ '-' :: (toString k).toList)) ∧
      r.description = (Text g.comment g.owner).take 2047 := by
  intro r hr
  obtain ⟨g, h1, h2, h3, hdr, h4⟩ := (filter_names h ho hh ha).2 r hr
  refine ⟨g, h1, h2, h3, ?_⟩
  rw [if_neg (by simpa using hs g h1)] at h4
  exact h4

end Verif.Props
