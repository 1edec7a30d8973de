import Verif.Spec.Tf
import Verif.Props.Gce

/-!
Lemmas about the model of capirca/lib/gce_vpc_tf.py: its rules are those of gce.py under other actions and priorities.
-/

namespace Verif.Tf
open Verif Policy Aclgenerator Verif.Props Nacaddr
open Verif.Gce (GTerm Rule Ctx Filter)
open Verif.Spec.Gce (Flow Hits)

/-- The rule without its action, priority and description. -/
def strip (r : Rule) : Rule := { r with action := "", priority := none, description := [] }

theorem hits_strip {r : Rule} {fl : Flow} : Hits (strip r) fl ↔ Hits r fl := Iff.rfl

theorem strip_hits {rs rs' : List Rule} (h : rs.map strip = rs'.map strip) {fl : Flow} :
    (∃ r ∈ rs, Hits r fl) ↔ ∃ r ∈ rs', Hits r fl := by
  have key : ∀ l : List Rule, (∃ r ∈ l, Hits r fl) ↔ ∃ r ∈ l.map strip, Hits r fl := by
    intro l
    constructor
    · rintro ⟨r, h1, h2⟩
      exact ⟨_, List.mem_map.2 ⟨r, h1, rfl⟩, h2⟩
    · rintro ⟨_, h1, h2⟩
      obtain ⟨r, h3, rfl⟩ := List.mem_map.1 h1
      exact ⟨r, h3, h2⟩
  rw [key rs, key rs', h]

theorem refused_gce {dir : String} {t : Term} (h : refused dir t = false) : Gce.refused dir t = false := by
  unfold refused at h
  unfold Gce.refused
  have : t.destinationTag.isEmpty = true → Gce.tagsPresent t.destinationTag = false := by
    intro h
    rw [List.isEmpty_iff.1 h]
    rfl
  revert this h
  generalize Gce.tagsPresent t.destinationTag = x
  generalize t.destinationTag.isEmpty = y
  cases x
  · intro h _
    cases y <;> simp_all
  · cases y
    · simp
    · simp

theorem flatten_gce {dir : String} {t t' : Term} (h : flatten dir t = .ok t') : Gce.flatten dir t = .ok t' := by
  unfold flatten at h
  unfold Gce.flatten
  split at h
  next hx =>
    rw [if_pos hx]
    obtain ⟨u, h1, h2⟩ := bind_ok h
    unfold checkLeft at h2
    rw [h1]
    change Gce.checkLeft dir u = _
    unfold Gce.checkLeft
    split at h2
    · cases h2
    next hn => rw [if_neg hn]; exact h2
  next hx =>
    rw [if_neg hx]
    exact h

theorem newTerm_ok {dir : String} {t : Term} {ps : List Proto} {q : Term × List Proto} (h : newTerm dir t ps = .ok q) :
    q.2 = ps.map Gce.protoNumber ∧ refused dir t = false ∧ Gce.flatten dir t = .ok q.1 := by
  unfold newTerm at h
  obtain ⟨ps', h1, h⟩ := bind_ok h
  split at h
  · cases h
  next hr =>
    obtain ⟨t', h2, h⟩ := bind_ok h
    cases h
    exact ⟨Gce.protocols_ok h1, by simpa using hr, flatten_gce h2⟩

theorem numbered_strip {put : List Net → Rule → Rule} (hput : ∀ ch r, strip (put ch r) = put ch (strip r)) {many : Bool}
    {r r' : Rule} (h : strip r = strip r') : ∀ {i k : Nat} {cs : List (List Net)},
    (numbered put many r i k cs).map strip = (Gce.numbered put many r' i cs).map strip
  | i, k, [] => rfl
  | i, k, ch :: cs => by
    rw [numbered, Gce.numbered, List.map_cons, List.map_cons, numbered_strip hput h, hput, hput]
    have : (strip r).name = (strip r').name := congrArg Rule.name h
    change r.name = r'.name at this
    congr 2
    unfold strip at h ⊢
    rw [this]
    cases r
    cases r'
    simp_all

theorem split_strip {sa da : List Net} {k : Nat} {r r' : Rule} (h : strip r = strip r') :
    (split sa da k r).map strip = (Gce.split sa da r').map strip := by
  unfold split Gce.split
  split
  · exact numbered_strip (put := Gce.putSource) (fun _ _ => rfl) h
  · split
    · exact numbered_strip (put := Gce.putDestination) (fun _ _ => rfl) h
    · simp [h]

theorem checkNames_ok {rs out : List Rule} (h : checkNames rs = .ok out) : out = rs ∧ ∀ r ∈ rs, r.name.length ≤ 63 := by
  unfold checkNames at h
  split at h
  · cases h
  next hn =>
    refine ⟨(Except.ok.inj h).symm, fun r hr => ?_⟩
    simp only [List.any_eq_true, decide_eq_true_eq, not_exists, not_and] at hn
    have := hn r hr
    omega

theorem gceNames_ok {rs : List Rule} (h : ∀ r ∈ rs, r.name.length ≤ 63) : Gce.checkNames rs = .ok rs := by
  unfold Gce.checkNames
  rw [if_neg]
  simp only [List.any_eq_true, decide_eq_true_eq, not_exists, not_and]
  intro r hr
  have := h r hr
  omega

theorem actionOf_gce {t : Term} {a : String} (h : actionOf t = .ok a) : ∃ a', Gce.actionOf t = .ok a' := by
  unfold actionOf at h
  unfold Gce.actionOf
  split at h
  · cases h
  next w l hl =>
    rw [hl]
    dsimp only
    split at h
    next s hs =>
      have : (w, s) ∈ actionMap := Cisco.mem_of_lookup' hs
      simp [actionMap] at this
      rcases this with ⟨rfl, _⟩ | ⟨rfl, _⟩
      · exact ⟨"allowed", rfl⟩
      · exact ⟨"denied", rfl⟩
    · cases h

theorem convertRest_ok {c : Ctx} {v : Ver} {g : GTerm} {t : Term} {name desc : Str} {k : Nat} {ps : List Proto} {rs : List Rule}
    (h : convertRest c v g t name desc k ps = .ok rs) : t.destinationPort.length ≤ 256 ∧ ∃ action, actionOf t = .ok action ∧
    rs = split (Gce.addresses v t.sourceAddress) (Gce.addresses v t.destinationAddress) k (protoDict c v g t name desc k ps action) ∧
    ∀ r ∈ rs, r.name.length ≤ 63 := by
  unfold convertRest at h
  split at h
  · cases h
  next hp =>
    obtain ⟨action, h1, h⟩ := bind_ok h
    obtain ⟨rfl, h2⟩ := checkNames_ok h
    exact ⟨by omega, action, h1, rfl, h2⟩

theorem tags_gce {dir : String} {t : Term} (ht : "" ∉ t.sourceTag ++ t.destinationTag) :
    Gce.sourceTags dir t = sourceTags dir t ∧ Gce.targetTags dir t = targetTags dir t := by
  have h1 : "" ∉ t.sourceTag := fun h => ht (List.mem_append_left _ h)
  have h2 : "" ∉ t.destinationTag := fun h => ht (List.mem_append_right _ h)
  unfold Gce.sourceTags Gce.targetTags sourceTags targetTags
  rw [notag h1, notag h2]
  exact ⟨rfl, rfl⟩

/-- A pass makes the rules gce.py makes, under other actions and priorities. -/
theorem convert_gce {c : Ctx} {v : Ver} {g g' : GTerm} {t : Term} {name desc desc' : Str} {k : Nat} {ps : List Proto} {rs : List Rule}
    (h : convert c v g t name desc k ps = .ok rs) (ht : "" ∉ t.sourceTag ++ t.destinationTag)
    (ha : g'.srcAccounts = g.srcAccounts) (hb : g'.dstAccounts = g.dstAccounts) :
    ∃ rs', Gce.convert c v g' t name desc' ps = .ok rs' ∧ rs.map strip = rs'.map strip := by
  obtain ⟨t1, t2⟩ := tags_gce (dir := c.direction) ht
  have e1 : Gce.tooMany c.direction g' t = tooMany c.direction g t := by
    unfold Gce.tooMany tooMany
    rw [t1, t2, ha, hb]
  have e2 : Gce.leftToInet c v t = leftToInet c v t := by
    unfold Gce.leftToInet leftToInet
    rw [t1, t2]
  unfold convert at h
  unfold Gce.convert
  rw [e1, e2]
  split at h
  · cases h
  next n1 =>
    rw [if_neg n1]
    split at h
    next n2 => rw [if_pos n2]; cases h; exact ⟨_, rfl, rfl⟩
    next n2 =>
      rw [if_neg n2]
      split at h
      next n3 => rw [if_pos n3]; cases h; exact ⟨_, rfl, rfl⟩
      next n3 =>
        rw [if_neg n3]
        split at h
        next n4 => rw [if_pos n4]; cases h; exact ⟨_, rfl, rfl⟩
        next n4 =>
          rw [if_neg n4]
          obtain ⟨hp, action, h1, h2, h3⟩ := convertRest_ok h
          obtain ⟨action', h4⟩ := actionOf_gce h1
          have es : rs.map strip = (Gce.split (Gce.addresses v t.sourceAddress) (Gce.addresses v t.destinationAddress)
              (Gce.protoDict c v g' t name desc' (Gce.filteredProtocols v ps) action')).map strip := by
            rw [h2]
            apply split_strip
            unfold protoDict Gce.protoDict strip
            simp [ha, hb, t1, t2]
          refine ⟨_, ?_, es⟩
          unfold Gce.convertRest
          rw [if_neg (by omega), h4]
          refine gceNames_ok fun r hr => ?_
          have : strip r ∈ rs.map strip := by rw [es]; exact List.mem_map.2 ⟨r, hr, rfl⟩
          obtain ⟨r0, m0, e0⟩ := List.mem_map.1 this
          have := h3 r0 m0
          have en : (strip r0).name = (strip r).name := congrArg Rule.name e0
          change r0.name = r.name at en
          rw [← en]
          exact this

/-! ### priorities -/

/-- The priorities of the rules are the numbers from `k` on. -/
def Seq (k : Nat) (rs : List Rule) : Prop := rs.map Rule.priority = (List.range' k rs.length).map some

theorem seq_nil (k : Nat) : Seq k [] := rfl

theorem seq_append {k : Nat} {a b : List Rule} (ha : Seq k a) (hb : Seq (k + a.length) b) : Seq k (a ++ b) := by
  unfold Seq at *
  rw [List.map_append, ha, hb, List.length_append, ← List.map_append, List.range'_append_1]

theorem numbered_seq {put : List Net → Rule → Rule} (hput : ∀ ch r, (put ch r).priority = r.priority) {many : Bool} {r : Rule} :
    ∀ {i k : Nat} {cs : List (List Net)}, Seq k (numbered put many r i k cs)
  | i, k, [] => rfl
  | i, k, ch :: cs => by
    rw [numbered]
    refine seq_append (k := k) (a := [put ch { r with
      name := if many then r.name ++ '-' :: (toString (i + 1)).toList else r.name
      priority := some k }]) ?_ (numbered_seq hput)
    simp [Seq, hput]

theorem convert_seq {c : Ctx} {v : Ver} {g : GTerm} {t : Term} {name desc : Str} {k : Nat} {ps : List Proto} {rs : List Rule}
    (h : convert c v g t name desc k ps = .ok rs)
    (hp : g.priority = none ∨ t.sourceAddress ≠ [] ∨ t.destinationAddress ≠ []) : Seq k rs := by
  unfold convert at h
  split at h
  · cases h
  · split at h
    · cases h; rfl
    · split at h
      · cases h; rfl
      next hn =>
        split at h
        · cases h; rfl
        · obtain ⟨_, action, _, rfl, _⟩ := convertRest_ok h
          unfold split
          split
          · exact numbered_seq (put := Gce.putSource) (fun _ _ => rfl)
          next e1 =>
            split
            · exact numbered_seq (put := Gce.putDestination) (fun _ _ => rfl)
            next e2 =>
              have : g.priority = none := by
                rcases hp with hp | hp | hp
                · exact hp
                · simp only [Bool.or_eq_true, Bool.and_eq_true, Bool.not_eq_true', List.isEmpty_eq_false_iff, List.isEmpty_iff,
                    not_or, not_and] at hn e1
                  exact absurd (Classical.not_not.1 e1) (hn.1 hp)
                · simp only [Bool.or_eq_true, Bool.and_eq_true, Bool.not_eq_true', List.isEmpty_eq_false_iff, List.isEmpty_iff,
                    not_or, not_and] at hn e2
                  exact absurd (Classical.not_not.1 e2) (hn.2 hp)
              simp [Seq, protoDict, this]

/-- What all rules of a pass have in common. -/
theorem convert_mem {c : Ctx} {v : Ver} {g : GTerm} {t : Term} {name desc : Str} {k : Nat} {ps : List Proto} {rs : List Rule}
    (h : convert c v g t name desc k ps = .ok rs) {r : Rule} (hr : r ∈ rs) : ∃ action nm s d pr, actionOf t = .ok action ∧
    r = { protoDict c v g t name desc k (Gce.filteredProtocols v ps) action with
          name := nm, sourceRanges := s, destinationRanges := d, priority := pr } ∧
    s.length ≤ 256 ∧ d.length ≤ 256 ∧ (s = [] ∨ d = []) ∧ nm.length ≤ 63 ∧ tooMany c.direction g t = false ∧
    t.destinationPort.length ≤ 256 ∧ Gce.filteredProtocols v ps ≠ [] := by
  have num : ∀ {put : List Net → Rule → Rule} {many : Bool} {r x : Rule} {cs : List (List Net)} {i k : Nat},
      x ∈ numbered put many r i k cs → ∃ nm pr, ∃ ch ∈ cs, x = put ch { r with name := nm, priority := pr } := by
    intro put many r x cs
    induction cs with
    | nil => intro i k h; cases h
    | cons ch cs ih =>
      intro i k h
      rw [numbered] at h
      rcases List.mem_cons.1 h with rfl | h
      · exact ⟨_, _, ch, by simp, rfl⟩
      · obtain ⟨nm, pr, ch', h1, h2⟩ := ih h
        exact ⟨nm, pr, ch', List.mem_cons_of_mem _ h1, h2⟩
  unfold convert at h
  split at h
  · cases h
  next htm =>
    split at h
    · cases h; cases hr
    · split at h
      · cases h; cases hr
      · split at h
        · cases h; cases hr
        next hf =>
          obtain ⟨hp, action, h1, rfl, h2⟩ := convertRest_ok h
          have h3 := h2 _ hr
          unfold split at hr
          split at hr
          · obtain ⟨nm, pr, ch, h4, rfl⟩ := num hr
            exact ⟨action, nm, ch, _, pr, h1, rfl, (CloudArmor.chunks_mem (by decide) h4).2, by simp [protoDict, Gce.protoDict],
              .inr rfl, h3, by simpa using htm, hp, by simpa using hf⟩
          · split at hr
            · obtain ⟨nm, pr, ch, h4, rfl⟩ := num hr
              exact ⟨action, nm, _, ch, pr, h1, rfl, by simp [protoDict, Gce.protoDict], (CloudArmor.chunks_mem (by decide) h4).2,
                .inl rfl, h3, by simpa using htm, hp, by simpa using hf⟩
            · rw [List.mem_singleton.1 hr] at h3 ⊢
              exact ⟨action, _, _, _, _, h1, rfl, by simp [Gce.protoDict], by simp [Gce.protoDict],
                .inl rfl, h3, by simpa using htm, hp, by simpa using hf⟩

/-! ### the loops -/

theorem famLoop_cons {c : Ctx} {limit : Nat} {g : GTerm} {name : Str} {v : Ver} {vs : List Ver} {t : Term} {ps : List Proto}
    {comment : List Str} {n k : Nat} {o : Out} (h : famLoop c limit g name (v :: vs) t ps comment n k = .ok o) :
    ∃ q desc rs m o', newTerm c.direction t ps = .ok q ∧ convert c v g q.1 name desc k q.2 = .ok rs ∧ addCounts limit n rs = .ok m ∧
      famLoop c limit g name vs q.1 q.2 (Gce.withOwner g comment) m (k + rs.length) = .ok o' ∧ o.rules = rs ++ o'.rules ∧
      o.prio = o'.prio ∧ o.count = o'.count := by
  rw [famLoop] at h
  obtain ⟨q, h1, h⟩ := bind_ok h
  obtain ⟨rs, h2, h⟩ := bind_ok h
  obtain ⟨m, h4, h⟩ := bind_ok h
  obtain ⟨o', h3, h⟩ := bind_ok h
  cases h
  exact ⟨q, _, rs, m, o', h1, h2, h4, h3, rfl, rfl, rfl⟩

theorem oneTerm_live {c : Ctx} {limit : Nat} {vs : List Ver} {header : List Str} {n k : Nat} {g : GTerm} {name : Str} {o : Out}
    (h : oneTerm c limit vs header n k g name = .ok o) (hl : Spec.Tf.Live g) : g.term.option = [] ∧ ∃ comment o',
    famLoop c limit g name vs g.term (g.term.protocol.map .str) comment n k = .ok o' ∧ o'.rules = o.rules ∧ o'.prio = o.prio ∧
    o'.count = o.count := by
  unfold oneTerm at h
  rw [if_neg (by simp [hl.1])] at h
  split at h
  · cases h
  next ho =>
    have he : elsewhere g.term = false := by
      unfold elsewhere
      obtain ⟨_, _, h1, h2⟩ := hl
      rcases h1 with h1 | h1 <;> simp [h1, h2]
    rw [he, if_neg (by simp)] at h
    obtain ⟨o', h1, h⟩ := bind_ok h
    cases h
    exact ⟨by simpa using ho, _, o', h1, rfl, rfl, rfl⟩

theorem oneTerm_dead {c : Ctx} {limit : Nat} {vs : List Ver} {header : List Str} {n k : Nat} {g : GTerm} {name : Str} {o : Out}
    (h : oneTerm c limit vs header n k g name = .ok o) (hr : g.reply = false) (hl : ¬ Spec.Tf.Live g) :
    o.rules = [] ∧ o.prio = k ∧ o.count = n := by
  unfold oneTerm at h
  split at h
  · cases h; exact ⟨rfl, rfl, rfl⟩
  next h0 =>
    split at h
    · cases h
    · split at h
      · cases h; exact ⟨rfl, rfl, rfl⟩
      next h1 =>
        refine absurd ⟨by simpa using h0, hr, ?_⟩ hl
        unfold elsewhere at h1
        simp only [Bool.or_eq_true, Bool.and_eq_true, Bool.not_eq_true', List.isEmpty_eq_false_iff, not_or, not_and,
          List.contains_iff_mem] at h1
        refine ⟨?_, fun h2 => ?_⟩
        · by_cases h2 : g.term.platform = []
          · exact .inl h2
          · have := h1.1 h2
            simp only [← Bool.not_eq_true, List.contains_iff_mem] at this
            exact .inr (Classical.not_not.1 this)
        · exact h1.2 (by rintro e; rw [e] at h2; cases h2) h2

/-- The rules of a filter are blocks, one for each term. -/
theorem termsLoop_blocks {c : Ctx} {limit : Nat} {vs : List Ver} : ∀ {gs : List GTerm} {names header : List Str} {n k : Nat} {o : Out},
    termsLoop c limit vs names header n k gs = .ok o →
    ∃ bs : List (GTerm × List Rule), o.rules = bs.flatMap Prod.snd ∧ bs.map Prod.fst = gs ∧
      ∀ b ∈ bs, (b.1.reply = true ∧ b.2 = []) ∨ (b.1.reply = false ∧ ∃ name header n k o, Gce.fixName c.direction b.1.term.name = .ok name ∧
        oneTerm c limit vs header n k b.1 name = .ok o ∧ o.rules = b.2)
  | [], names, header, n, k, o, h => by
    cases h
    exact ⟨[], rfl, rfl, by simp⟩
  | g :: gs, names, header, n, k, o, h => by
    rw [termsLoop] at h
    split at h
    next hr =>
      obtain ⟨bs, h1, h2, h3⟩ := termsLoop_blocks h
      refine ⟨(g, []) :: bs, by rw [h1]; rfl, by rw [List.map_cons, h2], fun b hb => ?_⟩
      rcases List.mem_cons.1 hb with rfl | hb
      · exact .inl ⟨hr, rfl⟩
      · exact h3 b hb
    next hr =>
      obtain ⟨name, h1, h⟩ := bind_ok h
      split at h
      · cases h
      · obtain ⟨o1, h2, h⟩ := bind_ok h
        obtain ⟨q, h3, h⟩ := bind_ok h
        cases h
        obtain ⟨bs, h4, h5, h6⟩ := termsLoop_blocks h3
        refine ⟨(g, o1.rules) :: bs, by rw [h4]; rfl, by rw [List.map_cons, h5], fun b hb => ?_⟩
        rcases List.mem_cons.1 hb with rfl | hb
        · exact .inr ⟨by simpa using hr, name, header, n, k, o1, h1, h2, rfl⟩
        · exact h6 b hb

/-- If the rules of each term are numbered from where it starts, so are those of the filter. -/
theorem termsLoop_seq {c : Ctx} {limit : Nat} {vs : List Ver} : ∀ {gs : List GTerm} {names header : List Str} {n k : Nat} {o : Out},
    termsLoop c limit vs names header n k gs = .ok o →
    (∀ g ∈ gs, ∀ header n k name o, g.reply = false → oneTerm c limit vs header n k g name = .ok o →
      Seq k o.rules ∧ o.prio = k + o.rules.length) → Seq k o.rules ∧ o.prio = k + o.rules.length
  | [], names, header, n, k, o, h, _ => by cases h; exact ⟨rfl, rfl⟩
  | g :: gs, names, header, n, k, o, h, H => by
    have H' := fun g' (h' : g' ∈ gs) => H g' (List.mem_cons_of_mem _ h')
    rw [termsLoop] at h
    split at h
    · exact termsLoop_seq h H'
    next hr =>
      obtain ⟨name, h1, h⟩ := bind_ok h
      split at h
      · cases h
      · obtain ⟨o1, h2, h⟩ := bind_ok h
        obtain ⟨q, h3, h⟩ := bind_ok h
        cases h
        obtain ⟨s1, p1⟩ := H g (by simp) _ _ _ _ _ (by simpa using hr) h2
        obtain ⟨s2, p2⟩ := termsLoop_seq h3 H'
        rw [p1] at s2 p2
        refine ⟨seq_append s1 s2, ?_⟩
        dsimp only
        rw [p2, List.length_append]
        omega

end Verif.Tf
