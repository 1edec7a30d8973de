import Verif.Lemmas.Nftables
import Verif.Props.Nftables
import Verif.Props.Aclgenerator

/-!
Properties of whole rule sets of the model of capirca/lib/nftables.py: C87 to C90.
-/

namespace Verif.Props
open Verif Verif.Spec Verif.Spec.Nftables Verif.Nftables Policy Aclgenerator Nacaddr Lemmas

/-! ### headers -/

/-- What the loop over options leaves and what it may change. -/
structure OptLoop (l : List String) (h0 h : Nftables.Header) : Prop where
  family : h.family = h0.family
  hook : h.hook = h0.hook
  default : h.default = h0.default
  verbose : h.verbose = h0.verbose
  priority : h.priority = h0.priority
  base : h.base = h0.base ∨ ∃ pre post, l = pre ++ "base-chain-name" :: h.base :: post
  override : h.override = h0.override ∨ (h.override = some "bridge" ∧ "address-family-override" ∈ l)
  regular : h.regular = h0.regular ∨ "as-regular-chain" ∈ l

theorem optLoop_more {m l : List String} {h0 h1 h : Nftables.Header} (o : OptLoop l h1 h) (f1 : h1.family = h0.family)
    (f2 : h1.hook = h0.hook) (f3 : h1.default = h0.default) (f4 : h1.verbose = h0.verbose)
    (f8 : h1.priority = h0.priority)
    (f5 : h1.base = h0.base ∨ ∃ pre post, m ++ l = pre ++ "base-chain-name" :: h1.base :: post)
    (f6 : h1.override = h0.override ∨ (h1.override = some "bridge" ∧ "address-family-override" ∈ m ++ l))
    (f7 : h1.regular = h0.regular ∨ "as-regular-chain" ∈ m ++ l) : OptLoop (m ++ l) h0 h where
  family := o.family.trans f1
  hook := o.hook.trans f2
  default := o.default.trans f3
  verbose := o.verbose.trans f4
  priority := o.priority.trans f8
  base := by
    rcases o.base with e | ⟨pre, post, e⟩
    · rw [e]; exact f5
    · exact .inr ⟨m ++ pre, post, by rw [e]; simp⟩
  override := by
    rcases o.override with e | ⟨e, h⟩
    · rw [e]; exact f6
    · exact .inr ⟨e, List.mem_append_right _ h⟩
  regular := by
    rcases o.regular with e | h
    · rw [e]; exact f7
    · exact .inr (List.mem_append_right _ h)

theorem optLoop_spec : ∀ {l : List String} {h0 h : Nftables.Header}, optLoop l h0 = .ok h → OptLoop l h0 h := by
  intro l h0 h e
  induction l, h0 using optLoop.induct with
  | case1 h0 =>
    rw [optLoop] at e
    cases e
    exact ⟨rfl, rfl, rfl, rfl, rfl, .inl rfl, .inl rfl, .inl rfl⟩
  | case2 h0 => rw [optLoop] at e; cases e
  | case3 x l h0 ih =>
    rw [optLoop] at e
    exact optLoop_more (m := ["base-chain-name", x]) (ih e) rfl rfl rfl rfl rfl (.inr ⟨[], l, rfl⟩) (.inl rfl) (.inl rfl)
  | case4 h0 => rw [optLoop] at e; cases e
  | case5 x l h0 ih =>
    rw [optLoop] at e
    exact optLoop_more (m := ["table-name", x]) (ih e) rfl rfl rfl rfl rfl (.inl rfl) (.inl rfl) (.inl rfl)
  | case6 h0 => rw [optLoop] at e; cases e
  | case7 l h0 ih =>
    rw [optLoop, if_pos rfl] at e
    exact optLoop_more (m := ["address-family-override", "bridge"]) (ih e) rfl rfl rfl rfl rfl (.inl rfl) (.inr ⟨rfl, by simp⟩) (.inl rfl)
  | case8 x l h0 hx =>
    rw [optLoop, if_neg hx] at e
    cases e
  | case9 l h0 ih =>
    rw [optLoop] at e
    exact optLoop_more (m := ["as-regular-chain"]) (ih e) rfl rfl rfl rfl rfl (.inl rfl) (.inl rfl) (.inr (by simp))
  | case10 x l h0 h1 h2 h3 h4 h5 h6 h7 ih =>
    rw [optLoop] at e
    · exact optLoop_more (m := [x]) (ih e) rfl rfl rfl rfl rfl (.inl rfl) (.inl rfl) (.inl rfl)
    all_goals assumption

/-- What a header that is taken says. -/
structure HeaderSays (options : List String) (h : Nftables.Header) : Prop where
  family : Family options h.family
  hook : Hook options h.hook
  default : Default options h.default
  base : BaseOf options h.base
  override : h.override = none ∨ (h.override = some "bridge" ∧ Overridden options)
  regular : h.regular = true → "as-regular-chain" ∈ options
  priority : Priority options h.priority
  hooks : h.hook ∈ ["forward", "input", "output"]

theorem numeric_iff {s : String} : isNumber s = true ↔ Numeric s := by
  unfold isNumber Numeric
  simp only [Bool.and_eq_true, Bool.not_eq_true', List.isEmpty_eq_false_iff, List.all_eq_true]

theorem priority_says {options : List String} {p : String} (h : priorityOf options = .ok p) : Priority options p := by
  unfold priorityOf at h
  split at h
  next e =>
    cases h
    refine ⟨fun o ho hn => ?_, .inr rfl⟩
    have : o ∈ options.filter isNumber := List.mem_filter.2 ⟨ho, numeric_iff.2 hn⟩
    rw [e] at this
    cases this
  next n e =>
    cases h
    have hm : p ∈ options.filter isNumber := by rw [e]; simp
    refine ⟨fun o ho hn => ?_, .inl ⟨p, (List.mem_filter.1 hm).1, numeric_iff.1 (List.mem_filter.1 hm).2⟩⟩
    have : o ∈ options.filter isNumber := List.mem_filter.2 ⟨ho, numeric_iff.2 hn⟩
    rw [e] at this
    exact (List.mem_singleton.1 this).symm
  next => cases h

theorem header_says {options : List String} {h : Nftables.Header} (e : processHeader options = .ok h) : HeaderSays options h := by
  unfold processHeader at e
  split at e
  next a k l =>
    split at e
    · cases e
    next af ha =>
      split at e
      next hk =>
        obtain ⟨pr, hpr, e⟩ := bind_ok e
        have o := optLoop_spec e
        constructor
        · rw [o.family]
          have := Cisco.mem_of_lookup' ha
          simp only [tableFamilies, List.mem_cons, List.not_mem_nil, or_false, Prod.mk.injEq] at this
          unfold Family
          rcases this with ⟨rfl, rfl⟩ | ⟨rfl, rfl⟩ | ⟨rfl, rfl⟩ <;> simp
        · rw [o.hook]
          exact ⟨a, k, l, rfl, by simp [lower]⟩
        · rw [o.default]
          unfold Default
          by_cases hc : "ACCEPT" ∈ a :: k :: l
          · rw [if_pos hc]
            exact if_pos (by simpa using hc)
          · rw [if_neg hc]
            exact if_neg (by simpa using hc)
        · exact o.base
        · exact o.override.imp_right fun h => ⟨h.1, List.mem_of_mem_erase h.2⟩
        · intro hr
          rcases o.regular with e | h
          · rw [e] at hr; cases hr
          · exact List.mem_of_mem_erase h
        · rw [o.priority]
          exact priority_says hpr
        · rw [o.hook]
          simpa using hk
      next => cases e
  next => cases e

theorem says_family {options : List String} {h : Nftables.Header} (s : HeaderSays options h) : h.family ∈ ["ip", "ip6", "inet"] := by
  rcases s.family with h | h | h <;> simp [h.2]

/-! ### numbered names -/

theorem digits_all (n : Nat) : ∀ c ∈ (toString n).toList, c.isDigit = true := by
  have hd : (toString n).toList = Nat.toDigits 10 n := Nat.toList_repr
  rw [hd]
  exact fun c hc => Nat.isDigit_of_mem_toDigits (by decide) (by decide) hc

theorem number_inj {n m : Nat} (h : (toString n).toList = (toString m).toList) : n = m := by
  have hd : ∀ k : Nat, Nat.ofDigitChars 10 (toString k).toList 0 = k := fun k => by
    have hd : (toString k).toList = Nat.toDigits 10 k := Nat.toList_repr
    rw [hd]
    exact Nat.ofDigitChars_ten_toDigits
  have := congrArg (Nat.ofDigitChars 10 · 0) h
  simpa only [hd] using this

theorem digits_end {b : Str} (hb : ∀ c, b.getLast? = some c → c.isDigit = false) (n : Nat) :
    (b ++ (toString n).toList).reverse.takeWhile Char.isDigit = (toString n).toList.reverse := by
  rw [List.reverse_append, List.takeWhile_append_of_pos (fun c hc => digits_all n c (List.mem_reverse.1 hc))]
  cases hr : b.reverse with
  | nil => simp
  | cons c l =>
    have : b.getLast? = some c := by
      rw [List.getLast?_eq_head?_reverse, hr]
      rfl
    rw [List.takeWhile_cons_of_neg (by simp [hb c this]), List.append_nil]

theorem base_number {b b' : Str} (hb : ∀ c, b.getLast? = some c → c.isDigit = false)
    (hb' : ∀ c, b'.getLast? = some c → c.isDigit = false) {n m : Nat}
    (h : b ++ (toString n).toList = b' ++ (toString m).toList) : n = m := by
  have h1 := digits_end hb n
  rw [h, digits_end hb' m] at h1
  exact number_inj (by simpa using h1.symm)

/-! ### terms and filters -/

theorem dropped_live {g : NTerm} : dropped g = false ↔ Live g := by
  unfold dropped Live Nftables.elsewhere
  cases g.expired <;> cases g.reply <;> by_cases h1 : "established" ∈ g.term.option <;>
    by_cases h2 : "tcp-established" ∈ g.term.option <;> by_cases h3 : g.term.platform = [] <;>
    by_cases h4 : "nftables" ∈ g.term.platform <;> by_cases h5 : "nftables" ∈ g.term.platformExclude <;>
    by_cases h6 : g.term.platformExclude = [] <;> simp_all

theorem nft_terms_names {af : String} {vb : Bool} : ∀ {gs : List NTerm} {names : List Str} {cs : List (Str × List Rule)},
    Nftables.termsLoop af vb names gs = .ok cs → (cs.map Prod.fst).Nodup ∧
      ∀ n ∈ cs.map Prod.fst, n ∉ names ∧ ∃ g ∈ gs, g.term.name = n
  | [], names, cs, h => by
    cases h
    simp
  | g :: gs, names, cs, h => by
    unfold Nftables.termsLoop at h
    split at h
    · cases h
    next hn =>
      split at h
      · cases h
      · split at h
        · obtain ⟨i1, i2⟩ := nft_terms_names h
          refine ⟨i1, fun n hm => ?_⟩
          obtain ⟨h1, g', h2, h3⟩ := i2 n hm
          exact ⟨fun h => h1 (List.mem_cons_of_mem _ h), g', List.mem_cons_of_mem _ h2, h3⟩
        · obtain ⟨t, _, h⟩ := bind_ok h
          obtain ⟨rs, _, h⟩ := bind_ok h
          obtain ⟨q, h2, h⟩ := bind_ok h
          cases h
          obtain ⟨i1, i2⟩ := nft_terms_names h2
          refine ⟨?_, fun n hm => ?_⟩
          · rw [List.map_cons, List.nodup_cons]
            exact ⟨fun hm => (i2 _ hm).1 (by simp), i1⟩
          · rcases List.mem_cons.1 hm with rfl | hm
            · exact ⟨by simpa using hn, g, by simp, rfl⟩
            · obtain ⟨h1, g', h2, h3⟩ := i2 n hm
              exact ⟨fun h => h1 (List.mem_cons_of_mem _ h), g', List.mem_cons_of_mem _ h2, h3⟩

theorem wants_unique {fl : Flow} {g : NTerm} {v w : String} (h1 : Wants fl g v) (h2 : Wants fl g w) : v = w := by
  obtain ⟨_, _, ⟨a, e1, m1⟩, _⟩ := h1
  obtain ⟨_, _, ⟨b, e2, m2⟩, _⟩ := h2
  rw [e1] at e2
  obtain rfl : a = b := by simpa using e2
  have key : ∀ x ∈ verdicts, ∀ y ∈ verdicts, x.1 = y.1 → x.2 = y.2 := by decide
  exact key _ m1 _ m2 rfl

theorem nft_terms_iff {af : String} (haf : af ∈ ["ip", "ip6", "inet"]) {vb : Bool} {fl : Flow} (hp : NftPacket fl.packet)
    (hv : Sees af fl.packet.ver) : ∀ {gs : List NTerm} {names : List Str} {cs : List (Str × List Rule)},
    Nftables.termsLoop af vb names gs = .ok cs → (∀ g ∈ gs, Live g → NftFits (Sees af) g) →
    (∀ v, First (ChainGives fl) cs v ↔ First (Wants fl) gs v) ∧
    ((∀ c ∈ cs, ∀ v, ¬ ChainGives fl c v) ↔ ∀ g ∈ gs, ∀ w, ¬ Wants fl g w)
  | [], names, cs, h, _ => by
    cases h
    exact ⟨fun v => iff_of_false first_nil first_nil, by simp⟩
  | g :: gs, names, cs, h, hf => by
    have hf' : ∀ g ∈ gs, Live g → NftFits (Sees af) g := fun g hg => hf g (List.mem_cons_of_mem _ hg)
    unfold Nftables.termsLoop at h
    split at h
    · cases h
    · split at h
      · cases h
      next hi =>
        split at h
        next hd =>
          obtain ⟨i1, i2⟩ := nft_terms_iff haf hp hv h hf'
          have hn : ∀ w, ¬ Wants fl g w := by
            intro w hw
            rw [dropped_live.2 hw.1] at hd
            cases hd
          constructor
          · intro v
            rw [i1, first_cons]
            exact ⟨fun h => .inr ⟨hn, h⟩, fun h => h.elim (fun h => absurd h (hn v)) (·.2)⟩
          · rw [i2]
            simp [hn]
        next hd =>
          have hl : Live g := dropped_live.1 (Bool.eq_false_iff.2 hd)
          obtain ⟨t, h1, h⟩ := bind_ok h
          obtain ⟨rs, h2, h⟩ := bind_ok h
          obtain ⟨q, h3, h⟩ := bind_ok h
          cases h
          obtain ⟨i1, i2⟩ := nft_terms_iff haf hp hv h3 hf'
          have key := term_iff haf (hf g (by simp) hl) hl (Bool.eq_false_iff.2 hi) h1 h2 hp hv
          have hg : ∀ v, ChainGives fl (g.term.name, rs) v ↔ Wants fl g v := by
            intro v
            unfold ChainGives
            rw [first_uniform]
            · exact key v
            · intro l hl w hw m hm w' hw'
              exact wants_unique ((key w).1 ⟨l, hl, hw⟩) ((key w').1 ⟨m, hm, hw'⟩)
          constructor
          · intro v
            rw [first_cons, first_cons, i1]
            simp only [hg]
          · simp only [List.mem_cons, forall_eq_or_imp, hg, i2]

/-- The chains for a filter. -/
structure Made (n : Nat) (f : Nftables.Filter) (x : Chains) : Prop where
  header : processHeader f.options = .ok x.header
  children : Nftables.termsLoop x.header.family x.header.verbose [] f.terms = .ok x.children
  base : x.base = x.header.base.toList ++ (toString n).toList
  comment : x.comment = f.comment

theorem nft_translate : ∀ {fs : List Nftables.Filter} {n : Nat} {xs : List Chains}, Nftables.translate n fs = .ok xs →
    (∀ k f, fs[k]? = some f → ∃ x, xs[k]? = some x ∧ Made (n + k) f x) ∧
    (∀ k x, xs[k]? = some x → ∃ f, fs[k]? = some f ∧ Made (n + k) f x)
  | [], n, xs, h => by
    cases h
    simp
  | f :: fs, n, xs, h => by
    unfold Nftables.translate at h
    obtain ⟨hd, h1, h⟩ := bind_ok h
    obtain ⟨cs, h2, h⟩ := bind_ok h
    obtain ⟨q, h3, h⟩ := bind_ok h
    cases h
    obtain ⟨i1, i2⟩ := nft_translate h3
    have hm : Made n f ⟨hd.base.toList ++ (toString n).toList, hd, f.comment, cs⟩ := ⟨h1, h2, rfl, rfl⟩
    constructor
    · intro k f' hk
      cases k with
      | zero =>
        cases hk
        exact ⟨_, rfl, hm⟩
      | succ k =>
        obtain ⟨x, h4, h5⟩ := i1 k f' hk
        exact ⟨x, h4, by rw [show n + (k + 1) = n + 1 + k by omega]; exact h5⟩
    · intro k x hk
      cases k with
      | zero =>
        cases hk
        exact ⟨_, rfl, hm⟩
      | succ k =>
        obtain ⟨f', h4, h5⟩ := i2 k x hk
        exact ⟨f', h4, by rw [show n + (k + 1) = n + 1 + k by omega]; exact h5⟩

/-- The names of the chains for a filter. -/
def chainNames (x : Chains) : List Str := (chainsOf x).map Chain.name

theorem mem_chainNames {x : Chains} {n : Str} : n ∈ chainNames x ↔ n ∈ x.children.map Prod.fst ∨ n = x.base := by
  unfold chainNames chainsOf baseChain
  simp

theorem children_terms {n : Nat} {f : Nftables.Filter} {x : Chains} (m : Made n f x) {a : Str} (h : a ∈ x.children.map Prod.fst) :
    ∃ g ∈ f.terms, g.term.name = a := ((nft_terms_names m.children).2 a h).2

theorem nft_base {fs : List Nftables.Filter} (d : Distinct fs) {n m : Nat} {f f' : Nftables.Filter} {x y : Chains}
    (hf : f ∈ fs) (hf' : f' ∈ fs) (h1 : Made n f x) (h2 : Made m f' y) (e : x.base = y.base) : n = m := by
  rw [h1.base, h2.base] at e
  exact base_number (d.bases f hf _ (header_says h1.header).base) (d.bases f' hf' _ (header_says h2.header).base) e

theorem nft_own {fs : List Nftables.Filter} (d : Distinct fs) {n : Nat} {f : Nftables.Filter} {x : Chains} (hf : f ∈ fs)
    (h : Made n f x) : (chainNames x).Nodup := by
  have : chainNames x = x.children.map Prod.fst ++ [x.base] := by
    unfold chainNames chainsOf baseChain
    simp
  rw [this, List.nodup_append]
  refine ⟨(nft_terms_names h.children).1, by simp, ?_⟩
  intro a ha b hb
  obtain rfl := List.mem_singleton.1 hb
  obtain ⟨g, hg, rfl⟩ := children_terms h ha
  rw [h.base]
  exact d.terms f hf g hg f hf _ (header_says h.header).base n

theorem same_fam {o o' : List String} {h h' : Nftables.Header} (s : HeaderSays o h) (s' : HeaderSays o' h')
    (e : h.override.getD h.family = h'.override.getD h'.family) : o.head? = o'.head? ∨ (Overridden o ∧ Overridden o') := by
  have f1 := says_family s
  have f2 := says_family s'
  rcases s.override with e1 | ⟨e1, o1⟩ <;> rcases s'.override with e2 | ⟨e2, o2⟩ <;> rw [e1, e2] at e <;>
    simp only [Option.getD_none, Option.getD_some] at e
  · left
    have a := s.family
    have b := s'.family
    rw [e] at a
    unfold Family at a b
    rcases a with ⟨a1, a2⟩ | ⟨a1, a2⟩ | ⟨a1, a2⟩ <;> rcases b with ⟨b1, b2⟩ | ⟨b1, b2⟩ | ⟨b1, b2⟩ <;>
      first | exact a1.trans b1.symm | exact absurd (a2.symm.trans b2) (by decide)
  · rw [e] at f1
    exact absurd f1 (by decide)
  · rw [← e] at f2
    exact absurd f2 (by decide)
  · exact .inr ⟨o1, o2⟩

theorem nft_apart {fs : List Nftables.Filter} (d : Distinct fs) : ∀ {gs : List Nftables.Filter} {n : Nat} {xs : List Chains},
    Nftables.translate n gs = .ok xs → gs.Sublist fs →
    xs.Pairwise (fun x y => x.base ≠ y.base) ∧
    xs.Pairwise (fun x y => famOf x = famOf y → ∀ a ∈ chainNames x, ∀ b ∈ chainNames y, a ≠ b)
  | [], n, xs, h, _ => by
    cases h
    simp
  | f :: gs, n, xs, h, hs => by
    have h0 := h
    unfold Nftables.translate at h
    obtain ⟨hd, h1, h⟩ := bind_ok h
    obtain ⟨cs, h2, h⟩ := bind_ok h
    obtain ⟨q, h3, h⟩ := bind_ok h
    cases h
    have hm : Made n f ⟨hd.base.toList ++ (toString n).toList, hd, f.comment, cs⟩ := ⟨h1, h2, rfl, rfl⟩
    obtain ⟨i1, i2⟩ := nft_apart d h3 ((List.sublist_cons_self f gs).trans hs)
    have hf : f ∈ fs := hs.subset (by simp)
    have hp := (List.pairwise_cons.1 (d.filters.sublist hs)).1
    have key : ∀ y ∈ q, ∃ k f', f' ∈ gs ∧ n < k ∧ Made k f' y := by
      intro y hy
      obtain ⟨k, hk⟩ := List.mem_iff_getElem?.1 hy
      obtain ⟨f', h4, h5⟩ := (nft_translate h3).2 k y hk
      exact ⟨n + 1 + k, f', List.mem_of_getElem? h4, by omega, h5⟩
    rw [List.pairwise_cons, List.pairwise_cons]
    refine ⟨⟨?_, i1⟩, ?_, i2⟩
    · intro y hy e
      obtain ⟨k, f', hf', hk, m⟩ := key y hy
      have := nft_base d hf (hs.subset (List.mem_cons_of_mem _ hf')) hm m e
      omega
    · intro y hy hfam a ha b hb
      obtain ⟨k, f', hf', hk, m⟩ := key y hy
      have hf2 : f' ∈ fs := hs.subset (List.mem_cons_of_mem _ hf')
      rcases mem_chainNames.1 ha with ha | ha <;> rcases mem_chainNames.1 hb with hb | hb
      · obtain ⟨g, hg, rfl⟩ := children_terms hm ha
        obtain ⟨g', hg', rfl⟩ := children_terms m hb
        exact hp f' hf' (same_fam (header_says hm.header) (header_says m.header) hfam) g hg g' hg'
      · obtain ⟨g, hg, rfl⟩ := children_terms hm ha
        rw [hb, m.base]
        exact d.terms f hf g hg f' hf2 _ (header_says m.header).base k
      · obtain ⟨g, hg, rfl⟩ := children_terms m hb
        rw [ha, hm.base]
        exact (d.terms f' hf2 g hg f hf _ (header_says hm.header).base n).symm
      · rw [ha, hb]
        intro e
        have := nft_base d hf hf2 hm m e
        omega

/-! ### tables -/

theorem render_mem {c : Config} {l : List Chains} (h : Filled c l) {t : Table} (ht : t ∈ render c) :
    t.chains = (l.filter fun x => x.header.table == t.name && famOf x == t.family).flatMap chainsOf := by
  unfold render at ht
  obtain ⟨T, hT, ht⟩ := List.mem_flatMap.1 ht
  obtain ⟨A, hA, rfl⟩ := List.mem_map.1 ht
  dsimp only
  rw [h.bases T hT A hA]
  unfold inTable
  rw [List.flatMap_map]

theorem render_there {c : Config} {l : List Chains} (h : Filled c l) {x : Chains} (hx : x ∈ l) :
    ∃ t ∈ render c, t.name = x.header.table ∧ t.family = famOf x := by
  obtain ⟨T, hT, e, A, hA, e2⟩ := h.there x hx
  exact ⟨_, List.mem_flatMap.2 ⟨T, hT, List.mem_map.2 ⟨A, hA, rfl⟩⟩, e, e2⟩

theorem body_of : ∀ {l : List Chain} {c : Chain}, (l.map Chain.name).Nodup → c ∈ l →
    (l.flatMap fun d => if d.name = c.name then d.items else []) = c.items
  | d :: l, c, h, hc => by
    rw [List.map_cons, List.nodup_cons] at h
    rw [List.flatMap_cons]
    rcases List.mem_cons.1 hc with rfl | hc
    · rw [if_pos rfl]
      have : (l.flatMap fun d => if d.name = c.name then d.items else []) = [] := by
        rw [List.flatMap_eq_nil_iff]
        intro x hx
        rw [if_neg]
        exact fun e => h.1 (List.mem_map.2 ⟨x, hx, e⟩)
      rw [this, List.append_nil]
    · rw [if_neg, List.nil_append, body_of h.2 hc]
      exact fun e => h.1 (List.mem_map.2 ⟨c, hc, e.symm⟩)

/-- What the output is made of. -/
structure OutputIs (fs : List Nftables.Filter) (ts : List Table) (xs : List Chains) : Prop where
  every : ∀ k f, fs[k]? = some f → ∃ x, xs[k]? = some x ∧ Made k f x
  only : ∀ x ∈ xs, ∃ k f, fs[k]? = some f ∧ xs[k]? = some x ∧ Made k f x
  chains : ∀ t ∈ ts, t.chains = (xs.filter fun x => x.header.table == t.name && famOf x == t.family).flatMap chainsOf
  there : ∀ x ∈ xs, ∃ t ∈ ts, t.name = x.header.table ∧ t.family = famOf x
  names : ∀ t ∈ ts, (t.chains.map Chain.name).Nodup

theorem output_is {fs : List Nftables.Filter} (d : Distinct fs) {ts : List Table} (h : output fs = .ok ts) :
    ∃ xs, OutputIs fs ts xs := by
  unfold output at h
  obtain ⟨xs, h1, h⟩ := bind_ok h
  cases h
  obtain ⟨t1, t2⟩ := nft_translate h1
  obtain ⟨a1, a2⟩ := nft_apart d h1 (List.Sublist.refl fs)
  have hf := filled a1
  simp only [Nat.zero_add] at t1 t2
  refine ⟨xs, t1, ?_, fun t ht => render_mem hf ht, fun x hx => render_there hf hx, ?_⟩
  · intro x hx
    obtain ⟨k, hk⟩ := List.mem_iff_getElem?.1 hx
    obtain ⟨f, h2, h3⟩ := t2 k x hk
    exact ⟨k, f, h2, hk, h3⟩
  · intro t ht
    rw [render_mem hf ht, List.map_flatMap]
    refine List.pairwise_flatMap.2 ⟨?_, ?_⟩
    · intro x hx
      obtain ⟨k, hk⟩ := List.mem_iff_getElem?.1 (List.mem_filter.1 hx).1
      obtain ⟨f, h2, h3⟩ := t2 k x hk
      exact nft_own d (List.mem_of_getElem? h2) h3
    · refine List.Pairwise.imp_of_mem ?_ (a2.sublist List.filter_sublist)
      intro x y hx hy hxy a ha b hb
      have e1 := (List.mem_filter.1 hx).2
      have e2 := (List.mem_filter.1 hy).2
      simp only [Bool.and_eq_true, beq_iff_eq] at e1 e2
      exact hxy (e1.2.trans e2.2.symm) a ha b hb

theorem in_chains {fs : List Nftables.Filter} {ts : List Table} {xs : List Chains} (o : OutputIs fs ts xs) {t : Table}
    (ht : t ∈ ts) {x : Chains} (hx : x ∈ xs) (h1 : t.name = x.header.table) (h2 : t.family = famOf x) {c : Chain}
    (hc : c ∈ chainsOf x) : c ∈ t.chains ∧ Body t c.name = c.items := by
  have hm : c ∈ t.chains := by
    rw [o.chains t ht]
    exact List.mem_flatMap.2 ⟨x, List.mem_filter.2 ⟨hx, by simp [h1, h2]⟩, hc⟩
  exact ⟨hm, body_of (o.names t ht) hm⟩

theorem from_chains {fs : List Nftables.Filter} {ts : List Table} {xs : List Chains} (o : OutputIs fs ts xs) {t : Table}
    (ht : t ∈ ts) {c : Chain} (hc : c ∈ t.chains) :
    ∃ x ∈ xs, t.name = x.header.table ∧ t.family = famOf x ∧ c ∈ chainsOf x := by
  rw [o.chains t ht] at hc
  obtain ⟨x, hx, hc⟩ := List.mem_flatMap.1 hc
  obtain ⟨h1, h2⟩ := List.mem_filter.1 hx
  simp only [Bool.and_eq_true, beq_iff_eq] at h2
  exact ⟨x, h1, h2.1.symm, h2.2.symm, hc⟩

theorem base_in (x : Chains) : baseChain x ∈ chainsOf x := by
  unfold chainsOf
  simp

theorem base_run {fs : List Nftables.Filter} {ts : List Table} {xs : List Chains} (o : OutputIs fs ts xs) {t : Table}
    (ht : t ∈ ts) {x : Chains} (hx : x ∈ xs) (h1 : t.name = x.header.table) (h2 : t.family = famOf x) (fl : Flow)
    (v : Option String) : Run t fl (Body t x.base) v ↔ (Known fl ∧ v = some "accept") ∨
      (¬ Known fl ∧ ((∃ w, v = some w ∧ First (ChainGives fl) x.children w) ∨
        (v = none ∧ ∀ c ∈ x.children, ∀ w, ¬ ChainGives fl c w))) := by
  have hb := (in_chains o ht hx h1 h2 (base_in x)).2
  rw [show x.base = (baseChain x).name from rfl, hb, run_base, run_jumps]
  intro c hc
  exact (in_chains o ht hx h1 h2 (c := { name := c.1, items := c.2.map .rule }) (by
    unfold chainsOf
    exact List.mem_append_left _ (List.mem_map.2 ⟨c, hc, rfl⟩))).2

/-! ### C87 -/

theorem toList_inj {a b : String} (h : a.toList = b.toList) : a = b := String.toList_inj.1 h

theorem hook_unique {o : List String} {a b : String} (h1 : Hook o a) (h2 : Hook o b) : a = b := by
  obtain ⟨x, k, l, e, h1⟩ := h1
  obtain ⟨x', k', l', e', h2⟩ := h2
  rw [e] at e'
  injection e' with _ e'
  injection e' with e'
  subst e'
  exact toList_inj (h1.symm.trans h2)

theorem family_unique {o : List String} {a b : String} (h1 : Family o a) (h2 : Family o b) : a = b := by
  unfold Family at h1 h2
  rcases h1 with ⟨a1, rfl⟩ | ⟨a1, rfl⟩ | ⟨a1, rfl⟩ <;> rcases h2 with ⟨b1, rfl⟩ | ⟨b1, rfl⟩ | ⟨b1, rfl⟩ <;>
    first | rfl | (rw [a1] at b1; exact absurd b1 (by decide))

/-- Every filter has its chain, in a table of its family, with its hook, priority and default. A packet of that family that
is not part of a known connection leaves the chain with the verdict of the first term that wants one, and comes to the end
if none does. -/
theorem C87_chain_partial {fs : List Nftables.Filter} (d : Distinct fs) {ts : List Table} (h : output fs = .ok ts) {n : Nat}
    {f : Nftables.Filter} (hf : fs[n]? = some f)
    (fits : ∀ af, Family f.options af → ∀ g ∈ f.terms, Live g → NftFits (Sees af) g) :
    ∃ t ∈ ts, ∃ ch ∈ t.chains, (∃ b, BaseOf f.options b ∧ ch.name = b.toList ++ (toString n).toList) ∧
      (Family f.options t.family ∨ (Overridden f.options ∧ t.family = "bridge")) ∧
      ((ch.base = none ∧ "as-regular-chain" ∈ f.options) ∨ ∃ hook prio policy, ch.base = some (hook, prio, policy) ∧
        Hook f.options hook ∧ Priority f.options prio ∧ Default f.options policy) ∧
      ∀ fl, NftPacket fl.packet → (∃ af, Family f.options af ∧ Sees af fl.packet.ver) → ¬ Known fl →
        (∀ v, Run t fl (Body t ch.name) (some v) ↔ First (Wants fl) f.terms v) ∧
        (Run t fl (Body t ch.name) none ↔ ∀ g ∈ f.terms, ∀ v, ¬ Wants fl g v) := by
  obtain ⟨xs, o⟩ := output_is d h
  obtain ⟨x, hx, m⟩ := o.every n f hf
  have hx := List.mem_of_getElem? hx
  obtain ⟨t, ht, e1, e2⟩ := o.there x hx
  have s := header_says m.header
  refine ⟨t, ht, baseChain x, (in_chains o ht hx e1 e2 (base_in x)).1, ⟨_, s.base, m.base⟩, ?_, ?_, ?_⟩
  · rw [e2]
    unfold famOf
    rcases s.override with e | ⟨e, ho⟩
    · rw [e]
      exact .inl s.family
    · rw [e]
      exact .inr ⟨ho, rfl⟩
  · unfold baseChain
    cases hr : x.header.regular with
    | true => exact .inl ⟨by simp, s.regular hr⟩
    | false => exact .inr ⟨_, _, _, by simp, s.hook, s.priority, s.default⟩
  · intro fl hp hs hk
    obtain ⟨af, ha, hs⟩ := hs
    rw [family_unique ha s.family] at hs
    obtain ⟨i1, i2⟩ := nft_terms_iff (says_family s) hp hs m.children (fits _ s.family)
    have key := base_run o ht hx e1 e2 fl
    constructor
    · intro v
      rw [show (baseChain x).name = x.base from rfl, key]
      simp [hk, i1]
    · rw [show (baseChain x).name = x.base from rfl, key]
      simp only [hk, false_and, not_false_eq_true, true_and, false_or, reduceCtorEq, exists_false, i2]

/-- A packet that is not part of a known connection passes a hook if and only if every filter for that hook and the family
of the packet decides so. -/
theorem C87_policy_partial {fs : List Nftables.Filter} (d : Distinct fs) {ts : List Table} (h : output fs = .ok ts)
    (fits : ∀ f ∈ fs, ∀ af, Family f.options af → ∀ g ∈ f.terms, Live g → NftFits (Sees af) g)
    (plain : ∀ f ∈ fs, ¬ Overridden f.options ∧ "as-regular-chain" ∉ f.options) (hook : String) (fl : Flow)
    (hp : NftPacket fl.packet) (hk : ¬ Known fl) :
    Passes ts hook fl ↔
      ∀ f ∈ fs, Hook f.options hook → (∃ af, Family f.options af ∧ Sees af fl.packet.ver) → Decides f fl "accept" := by
  obtain ⟨xs, o⟩ := output_is d h
  have base : ∀ x ∈ xs, ∀ f, (∃ k, fs[k]? = some f ∧ Made k f x) → HeaderSays f.options x.header ∧ famOf x = x.header.family ∧
      (baseChain x).base = some (x.header.hook, x.header.priority, x.header.default) := by
    rintro x hx f ⟨k, hf, m⟩
    have s := header_says m.header
    obtain ⟨p1, p2⟩ := plain f (List.mem_of_getElem? hf)
    refine ⟨s, ?_, ?_⟩
    · unfold famOf
      rcases s.override with e | ⟨_, ho⟩
      · rw [e]
        rfl
      · exact absurd ho p1
    · unfold baseChain
      rw [if_neg fun hr => p2 (s.regular hr)]
  have dec : ∀ t ∈ ts, ∀ x ∈ xs, t.name = x.header.table → t.family = famOf x → Sees t.family fl.packet.ver →
      ∀ f, (∃ k, fs[k]? = some f ∧ Made k f x) →
      ((Run t fl (Body t x.base) (some "accept") ∨ (Run t fl (Body t x.base) none ∧ x.header.default = "accept")) ↔
        Decides f fl "accept") := by
    rintro t ht x hx e1 e2 hs f hm
    obtain ⟨s, hfam, _⟩ := base x hx f hm
    obtain ⟨k, hf, m⟩ := hm
    rw [e2, hfam] at hs
    obtain ⟨i1, i2⟩ := nft_terms_iff (says_family s) hp hs m.children
      (fits f (List.mem_of_getElem? hf) _ s.family)
    rw [base_run o ht hx e1 e2, base_run o ht hx e1 e2]
    unfold Decides
    rw [show Default f.options "accept" ↔ x.header.default = "accept" by
      have := s.default
      unfold Default at this ⊢
      rw [this]
      exact eq_comm]
    simp only [hk, false_and, not_false_eq_true, true_and, false_or, reduceCtorEq, exists_false, i2, or_false,
      Option.some.injEq, i1]
    simp
  constructor
  · intro hpass f hf hh hs
    obtain ⟨k, hf⟩ := List.mem_iff_getElem?.1 hf
    obtain ⟨x, hx, m⟩ := o.every k f hf
    have hx := List.mem_of_getElem? hx
    obtain ⟨t, ht, e1, e2⟩ := o.there x hx
    obtain ⟨s, hfam, hb⟩ := base x hx f ⟨k, hf, m⟩
    have hs : Sees t.family fl.packet.ver := by
      obtain ⟨af, ha, hs⟩ := hs
      rw [e2, hfam, family_unique s.family ha]
      exact hs
    refine (dec t ht x hx e1 e2 hs f ⟨k, hf, m⟩).1 ?_
    exact hpass t ht hs (baseChain x) (in_chains o ht hx e1 e2 (base_in x)).1 x.header.priority x.header.default
      (by rw [hb, hook_unique hh s.hook])
  · intro hall t ht hs c hc prio policy hbase
    obtain ⟨x, hx, e1, e2, hc⟩ := from_chains o ht hc
    obtain ⟨k, f, hf, hxk, m⟩ := o.only x hx
    obtain ⟨s, hfam, hb⟩ := base x hx f ⟨k, hf, m⟩
    unfold chainsOf at hc
    rcases List.mem_append.1 hc with hc | hc
    · obtain ⟨ch, _, rfl⟩ := List.mem_map.1 hc
      cases hbase
    · obtain rfl := List.mem_singleton.1 hc
      rw [hb] at hbase
      injection hbase with e
      injection e with a1 e
      injection e with a2 a3
      have := (dec t ht x hx e1 e2 hs f ⟨k, hf, m⟩).2
        (hall f (List.mem_of_getElem? hf) (a1 ▸ s.hook) ⟨_, s.family, by rw [← hfam, ← e2]; exact hs⟩)
      rw [a3] at this
      exact this

/-! ### C88 -/

/-- Packets of known connections pass every hook. -/
theorem C88_known_partial {fs : List Nftables.Filter} (d : Distinct fs) {ts : List Table} (h : output fs = .ok ts)
    (hook : String) (fl : Flow) (hk : Known fl) : Passes ts hook fl := by
  obtain ⟨xs, o⟩ := output_is d h
  intro t ht hs c hc prio policy hbase
  obtain ⟨x, hx, e1, e2, hc⟩ := from_chains o ht hc
  unfold chainsOf at hc
  rcases List.mem_append.1 hc with hc | hc
  · obtain ⟨ch, _, rfl⟩ := List.mem_map.1 hc
    cases hbase
  · obtain rfl := List.mem_singleton.1 hc
    exact .inl ((base_run o ht hx e1 e2 fl _).2 (.inl ⟨hk, rfl⟩))

/-- What all rules for a term have in common. -/
theorem ruleset_each {af : String} {vb : Bool} {g : NTerm} {rs : List Rule} (h : ruleset af vb g = .ok rs) :
    ∃ v, verdict g.term.action = .ok v ∧ ∀ r ∈ rs, r.verdict = v ∧ r.new = (plainRule g v).new ∧ r.log = (plainRule g v).log ∧
      r.counter = g.counter ∧ (r.comment = none ∨ r.comment = some (truncateWords (.inl g.comment) 126)) := by
  unfold ruleset at h
  obtain ⟨v, hv, h⟩ := bind_ok h
  obtain ⟨q, hq, h⟩ := bind_ok h
  cases h
  refine ⟨v, hv, ?_⟩
  have dec : ∀ {i c} {l out : List Rule} {r : Rule}, decorate i c l = .ok out → r ∈ out →
      ∃ r' ∈ l, r'.verdict = r.verdict ∧ r'.new = r.new ∧ r'.log = r.log ∧ r'.counter = r.counter ∧
        (r.comment = r'.comment ∨ r.comment = c) := by
    intro i c l out r hd hr
    cases l with
    | nil =>
      have hd : (if i.isSome || c.isSome then .error .indexError else .ok []) = Except.ok (ε := Err) out := hd
      split at hd
      · cases hd
      · cases hd
        cases hr
    | cons a l =>
      cases hd
      rcases List.mem_cons.1 hr with rfl | hr
      · exact ⟨a, by simp, rfl, rfl, rfl, rfl, .inr rfl⟩
      · exact ⟨r, List.mem_cons_of_mem _ hr, rfl, rfl, rfl, rfl, .inl rfl⟩
  have grp : ∀ {i c a ss} {p r : Rule} {out : List Rule}, group i c a ss p = .ok out → r ∈ out →
      p.verdict = r.verdict ∧ p.new = r.new ∧ p.log = r.log ∧ p.counter = r.counter ∧
        (r.comment = p.comment ∨ r.comment = c) := by
    intro i c a ss p r out hg hr
    unfold group at hg
    obtain ⟨r', hm, h1, h2, h3, h4, h5⟩ := dec hg hr
    have : r'.verdict = p.verdict ∧ r'.new = p.new ∧ r'.log = p.log ∧ r'.counter = p.counter ∧ r'.comment = p.comment := by
      split at hm
      · split at hm
        · obtain rfl := List.mem_singleton.1 hm
          exact ⟨rfl, rfl, rfl, rfl, rfl⟩
        · obtain ⟨s, _, rfl⟩ := List.mem_map.1 hm
          exact ⟨rfl, rfl, rfl, rfl, rfl⟩
      · split at hm
        · obtain rfl := List.mem_singleton.1 hm
          exact ⟨rfl, rfl, rfl, rfl, rfl⟩
        · obtain ⟨s, _, rfl⟩ := List.mem_map.1 hm
          exact ⟨rfl, rfl, rfl, rfl, rfl⟩
    obtain ⟨j1, j2, j3, j4, j5⟩ := this
    exact ⟨j1.symm.trans h1, j2.symm.trans h2, j3.symm.trans h3, j4.symm.trans h4, h5.imp_left (·.trans j5)⟩
  have loop : ∀ {i c} {t : Term} {p : Rule} {vs : List Ver} {types : List String} {out : List Rule},
      famLoop i c t p vs types = .ok out → ∀ r ∈ out, p.verdict = r.verdict ∧ p.new = r.new ∧ p.log = r.log ∧
        p.counter = r.counter ∧ (r.comment = p.comment ∨ r.comment = c) := by
    intro i c t p vs
    induction vs with
    | nil =>
      intro types out hl r hr
      cases hl
      cases hr
    | cons v vs ih =>
      intro types out hl r hr
      unfold famLoop at hl
      dsimp only at hl
      split at hl
      · exact ih hl r hr
      · split at hl
        · exact ih hl r hr
        · obtain ⟨a, ha, hl⟩ := bind_ok hl
          obtain ⟨b, hb, hl⟩ := bind_ok hl
          cases hl
          rcases List.mem_append.1 hr with hr | hr
          · exact grp ha hr
          · exact ih hb r hr
  intro r hr
  obtain ⟨h1, h2, h3, h4, h5⟩ := loop hq r (List.mem_eraseDups.1 hr)
  refine ⟨h1.symm, h2.symm, h3.symm, h4.symm, ?_⟩
  rcases h5 with h5 | h5
  · exact .inl h5
  · rw [h5]
    split
    · exact .inr rfl
    · exact .inl rfl

theorem terms_from {af : String} {vb : Bool} : ∀ {gs : List NTerm} {names : List Str} {cs : List (Str × List Rule)},
    Nftables.termsLoop af vb names gs = .ok cs → ∀ c ∈ cs, ∃ g ∈ gs, Live g ∧ g.term.name = c.1 ∧ ∃ t,
      withoutExcluded g.term = .ok t ∧ ruleset af vb { g with term := t } = .ok c.2
  | [], names, cs, h => by
    cases h
    simp
  | g :: gs, names, cs, h => by
    unfold Nftables.termsLoop at h
    split at h
    · cases h
    · split at h
      · cases h
      · split at h
        · intro c hc
          obtain ⟨g', h1, h2⟩ := terms_from h c hc
          exact ⟨g', List.mem_cons_of_mem _ h1, h2⟩
        next hd =>
          obtain ⟨t, h1, h⟩ := bind_ok h
          obtain ⟨rs, h2, h⟩ := bind_ok h
          obtain ⟨q, h3, h⟩ := bind_ok h
          cases h
          intro c hc
          rcases List.mem_cons.1 hc with rfl | hc
          · exact ⟨g, by simp, dropped_live.1 (Bool.eq_false_iff.2 hd), rfl, t, h1, h2⟩
          · obtain ⟨g', j1, j2⟩ := terms_from h3 c hc
            exact ⟨g', List.mem_cons_of_mem _ j1, j2⟩

theorem change_all {κ β : Type} [DecidableEq κ] {new : β} {f : β → β} {k : κ} {P : β → Prop} (hn : P (f new))
    (hf : ∀ b, P b → P (f b)) : ∀ {l : List (κ × β)}, (∀ e ∈ l, P e.2) → ∀ e ∈ change new f k l, P e.2
  | [], _, e, he => by
    obtain rfl := List.mem_singleton.1 he
    exact hn
  | a :: l, h, e, he => by
    unfold change at he
    split at he
    · rcases List.mem_cons.1 he with rfl | he
      · exact hf _ (h a (by simp))
      · exact h e (List.mem_cons_of_mem _ he)
    · rcases List.mem_cons.1 he with rfl | he
      · exact h _ (by simp)
      · exact change_all hn hf (fun e he => h e (List.mem_cons_of_mem _ he)) e he

theorem config_all {P : Chains → Prop} : ∀ {l : List Chains} {c : Config},
    (∀ T ∈ c, ∀ A ∈ T.2, ∀ e ∈ A.2, P e.2) → (∀ x ∈ l, P x) → ∀ T ∈ l.foldl addChains c, ∀ A ∈ T.2, ∀ e ∈ A.2, P e.2
  | [], c, hc, _ => hc
  | x :: l, c, hc, hl => by
    rw [List.foldl_cons]
    refine config_all ?_ fun y hy => hl y (List.mem_cons_of_mem _ hy)
    have hx := hl x (by simp)
    have one : ∀ B : List (Str × Chains), (∀ e ∈ B, P e.2) → ∀ e ∈ change x (fun _ => x) x.base B, P e.2 :=
      fun B hB => change_all (P := P) hx (fun _ _ => hx) hB
    have two : ∀ A : List (String × List (Str × Chains)), (∀ a ∈ A, ∀ e ∈ a.2, P e.2) →
        ∀ a ∈ change [] (change x (fun _ => x) x.base) (x.header.override.getD x.header.family) A, ∀ e ∈ a.2, P e.2 :=
      fun A hA => change_all (P := fun (B : List (Str × Chains)) => ∀ e ∈ B, P e.2) (one [] (by simp)) one hA
    exact change_all (P := fun (A : List (String × List (Str × Chains))) => ∀ a ∈ A, ∀ e ∈ a.2, P e.2) (two [] (by simp)) two hc

/-- All chains are for filters. -/
theorem output_all {fs : List Nftables.Filter} {ts : List Table} (h : output fs = .ok ts) {t : Table} (ht : t ∈ ts) {c : Chain}
    (hc : c ∈ t.chains) : ∃ n, ∃ f ∈ fs, ∃ x, Made n f x ∧ c ∈ chainsOf x ∧ ∀ d ∈ chainsOf x, d ∈ t.chains := by
  unfold output at h
  obtain ⟨xs, h1, h⟩ := bind_ok h
  cases h
  unfold render at ht
  obtain ⟨T, hT, ht⟩ := List.mem_flatMap.1 ht
  obtain ⟨A, hA, rfl⟩ := List.mem_map.1 ht
  obtain ⟨e, he, hc⟩ := List.mem_flatMap.1 hc
  have : e.2 ∈ xs := config_all (P := fun x => x ∈ xs) (c := []) (fun _ h => nomatch h) (fun x hx => hx) T hT A hA e he
  obtain ⟨k, hk⟩ := List.mem_iff_getElem?.1 this
  obtain ⟨f, h2, h3⟩ := (nft_translate h1).2 k _ hk
  exact ⟨_, f, List.mem_of_getElem? h2, e.2, h3, hc, fun d hd => List.mem_flatMap.2 ⟨_, he, hd⟩⟩

/-- The items of chains, as they come from filters. -/
theorem item_from {fs : List Nftables.Filter} {ts : List Table} (h : output fs = .ok ts) {t : Table} (ht : t ∈ ts) {c : Chain}
    (hc : c ∈ t.chains) {r : Rule} (hr : Item.rule r ∈ c.items) : ∃ f ∈ fs, ∃ g ∈ f.terms, Live g ∧ g.term.name = c.name ∧ ∃ t' af vb rs,
      withoutExcluded g.term = .ok t' ∧ ruleset af vb { g with term := t' } = .ok rs ∧ r ∈ rs := by
  obtain ⟨n, f, hf, x, m, hc, _⟩ := output_all h ht hc
  unfold chainsOf at hc
  rcases List.mem_append.1 hc with hc | hc
  · obtain ⟨ch, hch, rfl⟩ := List.mem_map.1 hc
    obtain ⟨q, hq, e⟩ := List.mem_map.1 hr
    cases e
    obtain ⟨g, hg, hl, hn, t', e1, e2⟩ := terms_from m.children ch hch
    exact ⟨f, hf, g, hg, hl, hn, t', _, _, _, e1, e2, hq⟩
  · obtain rfl := List.mem_singleton.1 hc
    unfold baseChain at hr
    dsimp only at hr
    rcases List.mem_append.1 hr with hr | hr
    · split at hr
      · cases hr
      · cases List.mem_singleton.1 hr
    · rcases List.mem_cons.1 hr with hr | hr
      · cases hr
      · obtain ⟨_, _, e⟩ := List.mem_map.1 hr
        cases e

/-- A packet that neither opens a connection nor is part of a known one is not accepted by any chain, if terms have one
action and accepting ones have no ICMP types. -/
theorem C88_invalid {fs : List Nftables.Filter} {ts : List Table} (h : output fs = .ok ts)
    (act : ∀ f ∈ fs, ∀ g ∈ f.terms, Live g → ∃ w, g.term.action = [w] ∧ (w = "accept" → g.term.icmpType = []))
    {fl : Flow} (hn : fl.state ≠ "new") (hk : ¬ Known fl) {t : Table} (ht : t ∈ ts) (n : Str) :
    ¬ Run t fl (Body t n) (some "accept") := by
  have body : ∀ n, ∀ it ∈ Body t n, ∀ r, it = Item.rule r → r.verdict = "accept" → ¬ RuleHits r fl := by
    intro n it hit r e hv hh
    subst e
    unfold Body at hit
    obtain ⟨c, hc, hit⟩ := List.mem_flatMap.1 hit
    split at hit
    · obtain ⟨f, hf, g, hg, hl, _, t', af, vb, rs, e1, e2, hr⟩ := item_from h ht hc hit
      obtain ⟨w, hw, hi⟩ := act f hf g hg hl
      obtain ⟨s, d, _, _, rfl⟩ := excluded_shape e1
      obtain ⟨v, hv', hall⟩ := ruleset_each e2
      obtain ⟨j1, j2, _⟩ := hall r hr
      have hv' : verdict g.term.action = .ok v := hv'
      rw [hw] at hv'
      rw [hv] at j1
      subst j1
      have hv' : (match actions.lookup w with | some v => Except.ok (ε := Err) v | none => .error .keyError) = .ok "accept" := hv'
      have hwa : w = "accept" := by
        split at hv'
        next w' hlk =>
          cases hv'
          have := Cisco.mem_of_lookup' hlk
          simpa [actions] using this
        · cases hv'
      refine hn (hh.2.2.2 ?_)
      rw [j2]
      unfold plainRule
      dsimp only
      rw [hi hwa, hw, hwa]
      decide
    · cases hit
  have run : ∀ {items : List Item} {o : Option String}, Run t fl items o →
      (∀ it ∈ items, ∀ r, it = Item.rule r → r.verdict = "accept" → ¬ RuleHits r fl) → o ≠ some "accept" := by
    intro items o hr
    induction hr with
    | done => intro _ e; cases e
    | remark _ ih => exact fun hi => ih fun it hm => hi it (List.mem_cons_of_mem _ hm)
    | known hkn => exact absurd hkn hk
    | fresh _ _ ih => exact fun hi => ih fun it hm => hi it (List.mem_cons_of_mem _ hm)
    | hit hh =>
      intro hi e
      exact hi _ (by simp) _ rfl (Option.some.inj e) hh
    | miss _ _ ih => exact fun hi => ih fun it hm => hi it (List.mem_cons_of_mem _ hm)
    | jump _ ih => exact fun _ => ih (body _)
    | back _ _ _ ih => exact fun hi => ih fun it hm => hi it (List.mem_cons_of_mem _ hm)
  exact fun hr => run hr (body n) rfl

/-! ### C89 -/

/-- What a chain jumps to is a chain of the same table. -/
theorem C89_jumps {fs : List Nftables.Filter} {ts : List Table} (h : output fs = .ok ts) {t : Table} (ht : t ∈ ts) {c : Chain}
    (hc : c ∈ t.chains) {n : Str} (hj : Item.jump n ∈ c.items) : ∃ d ∈ t.chains, d.name = n ∧ d.base = none ∧
      ∀ it ∈ d.items, ∃ r, it = .rule r := by
  obtain ⟨_, f, hf, x, m, hc, hall⟩ := output_all h ht hc
  unfold chainsOf at hc
  rcases List.mem_append.1 hc with hc | hc
  · obtain ⟨ch, hch, rfl⟩ := List.mem_map.1 hc
    obtain ⟨q, hq, e⟩ := List.mem_map.1 hj
    cases e
  · obtain rfl := List.mem_singleton.1 hc
    unfold baseChain at hj
    dsimp only at hj
    rcases List.mem_append.1 hj with hj | hj
    · split at hj
      · cases hj
      · cases List.mem_singleton.1 hj
    · rcases List.mem_cons.1 hj with hj | hj
      · cases hj
      · obtain ⟨ch, hch, e⟩ := List.mem_map.1 hj
        cases e
        refine ⟨{ name := ch.1, items := ch.2.map .rule }, hall _ ?_, rfl, rfl, ?_⟩
        · unfold chainsOf
          exact List.mem_append_left _ (List.mem_map.2 ⟨ch, hch, rfl⟩)
        · intro it hit
          obtain ⟨r, _, rfl⟩ := List.mem_map.1 hit
          exact ⟨r, rfl⟩

/-- No name is used for two chains of a table; so a chain is what is written in one place, and what a term's chain is
jumped to for is the term. -/
theorem C89_chains_partial {fs : List Nftables.Filter} (d : Distinct fs) {ts : List Table} (h : output fs = .ok ts) {t : Table}
    (ht : t ∈ ts) : (t.chains.map Chain.name).Nodup ∧ ∀ c ∈ t.chains, Body t c.name = c.items := by
  obtain ⟨xs, o⟩ := output_is d h
  exact ⟨o.names t ht, fun c hc => body_of (o.names t ht) hc⟩

/-! ### C90 -/

theorem comment_ok (l : List Str) : CommentOk (truncateWords (.inl l) 126) := by
  obtain ⟨b, h1, _, h2, h3⟩ := C54_list_partial l 126
  exact ⟨b, h1, h2, h3⟩

/-- The comments of rules and of the rule for known connections are ones nftables takes. -/
theorem C90_comments {fs : List Nftables.Filter} {ts : List Table} (h : output fs = .ok ts) {t : Table} (ht : t ∈ ts) {c : Chain}
    (hc : c ∈ t.chains) : (∀ r, Item.rule r ∈ c.items → ∀ s, r.comment = some s → CommentOk s) ∧
      ∀ s, Item.known (some s) ∈ c.items → CommentOk s := by
  constructor
  · intro r hr s hs
    obtain ⟨f, hf, g, hg, hl, _, t', af, vb, rs, e1, e2, hm⟩ := item_from h ht hc hr
    obtain ⟨v, _, hall⟩ := ruleset_each e2
    rcases (hall r hm).2.2.2.2 with e | e
    · rw [hs] at e
      cases e
    · rw [hs] at e
      cases e
      exact comment_ok _
  · intro s hs
    obtain ⟨_, f, hf, x, m, hc, hall⟩ := output_all h ht hc
    unfold chainsOf at hc
    rcases List.mem_append.1 hc with hc | hc
    · obtain ⟨ch, hch, rfl⟩ := List.mem_map.1 hc
      obtain ⟨q, hq, e⟩ := List.mem_map.1 hs
      cases e
    · obtain rfl := List.mem_singleton.1 hc
      unfold baseChain at hs
      dsimp only at hs
      rcases List.mem_append.1 hs with hs | hs
      · split at hs
        · cases hs
        · cases List.mem_singleton.1 hs
      · rcases List.mem_cons.1 hs with hs | hs
        · injection hs with hs
          split at hs
          · cases hs
          · cases hs
            exact comment_ok _
        · obtain ⟨_, _, e⟩ := List.mem_map.1 hs
          cases e

/-! ### C91 -/

/-- A rule comes from a term that counts, after which its chain is named. It logs, with this name, if the term says so and
does not disable it; it counts if the term does; its verdict is that of the first action of the term. -/
theorem C91_log {fs : List Nftables.Filter} {ts : List Table} (h : output fs = .ok ts) {t : Table} (ht : t ∈ ts) {c : Chain}
    (hc : c ∈ t.chains) {r : Rule} (hr : Item.rule r ∈ c.items) : ∃ f ∈ fs, ∃ g ∈ f.terms, Live g ∧ g.term.name = c.name ∧
      (r.log = some c.name ↔ g.term.logging ≠ [] ∧ "disable" ∉ g.term.logging) ∧ (r.log = none ∨ r.log = some c.name) ∧
      r.counter = g.counter ∧ ∃ w, g.term.action.head? = some w ∧ (w, r.verdict) ∈ verdicts := by
  obtain ⟨f, hf, g, hg, hl, hn, t', af, vb, rs, e1, e2, hm⟩ := item_from h ht hc hr
  obtain ⟨s, d, _, _, rfl⟩ := excluded_shape e1
  obtain ⟨v, hv, hall⟩ := ruleset_each e2
  obtain ⟨j1, _, j3, j4, _⟩ := hall r hm
  refine ⟨f, hf, g, hg, hl, hn, ?_, ?_, j4, ?_⟩
  · rw [j3, ← hn]
    unfold plainRule
    by_cases h1 : g.term.logging = [] <;> by_cases h2 : "disable" ∈ g.term.logging <;> simp [h1, h2]
  · rw [j3, ← hn]
    unfold plainRule
    dsimp only
    split
    · exact .inr rfl
    · exact .inl rfl
  · have hv : verdict g.term.action = .ok v := hv
    cases ha : g.term.action with
    | nil =>
      rw [ha] at hv
      cases hv
    | cons w l =>
      rw [ha] at hv
      have hv : (match actions.lookup w with | some v => Except.ok (ε := Err) v | none => .error .keyError) = .ok v := hv
      refine ⟨w, rfl, ?_⟩
      split at hv
      next v' e =>
        cases hv
        rw [j1]
        exact Cisco.mem_of_lookup' e
      · cases hv

end Verif.Props
