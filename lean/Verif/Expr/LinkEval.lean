import Verif.Expr.LinkSpec
import Verif.Expr.LinkLemmas
namespace Verif.Expr

theorem evalT_mono (fm : FMath) (env : Env) (t : Tree) : ∀ {d : Nat} {e : Entry},
    evalT fm env d t = .ok (some e) → ∀ d', d' ≤ d → evalT fm env d' t = .ok (some e) := by
  have hp : ∀ {d d' : Nat} {e f : Entry}, d' ≤ d → pushE d e = .ok (some f) → pushE d' e = .ok (some f) := by
    intro d d' e f hd h
    have := pushE_ok.1 h
    exact pushE_ok.2 ⟨by omega, this.2⟩
  induction t with
  | const v => intro d e h d' hd; exact hp hd h
  | sym id =>
    intro d e h d' hd
    obtain ⟨a, h1, h2⟩ := Outcome.bind_ok.1 h
    exact Outcome.bind_ok.2 ⟨a, h1, hp hd h2⟩
  | bank id =>
    intro d e h d' hd
    obtain ⟨a, h1, h2⟩ := Outcome.bind_ok.1 h
    refine Outcome.bind_ok.2 ⟨a, h1, ?_⟩
    cases a with
    | none => simp at h2
    | some v => exact hp hd h2
  | pcRel l r ihl ihr =>
    intro d e h d' hd
    obtain ⟨a, h1, h2⟩ := Outcome.bind_ok.1 h
    cases a with
    | none => simp at h2
    | some a =>
      refine Outcome.bind_ok.2 ⟨_, ihl h1 d' hd, ?_⟩
      obtain ⟨b, h3, h4⟩ := Outcome.bind_ok.1 h2
      cases b with
      | none => simp at h4
      | some b =>
        refine Outcome.bind_ok.2 ⟨_, ihr h3 (d' + 1) (by omega), ?_⟩
        obtain ⟨c, h5, h6⟩ := Outcome.bind_ok.1 h4
        exact Outcome.bind_ok.2 ⟨_, h5, hp hd h6⟩
  | group l r ihl ihr =>
    intro d e h d' hd
    obtain ⟨a, h1, h2⟩ := Outcome.bind_ok.1 h
    cases a with
    | none => simp at h2
    | some a =>
      refine Outcome.bind_ok.2 ⟨_, ihl h1 d' hd, ?_⟩
      obtain ⟨b, h3, h4⟩ := Outcome.bind_ok.1 h2
      cases b with
      | none => simp at h4
      | some b =>
        refine Outcome.bind_ok.2 ⟨_, ihr h3 (d' + 1) (by omega), ?_⟩
        obtain ⟨c, h5, h6⟩ := Outcome.bind_ok.1 h4
        exact Outcome.bind_ok.2 ⟨_, h5, hp hd h6⟩
  | bin op l r ihl ihr =>
    intro d e h d' hd
    obtain ⟨a, h1, h2⟩ := Outcome.bind_ok.1 h
    cases a with
    | none => simp at h2
    | some a =>
      refine Outcome.bind_ok.2 ⟨_, ihl h1 d' hd, ?_⟩
      obtain ⟨b, h3, h4⟩ := Outcome.bind_ok.1 h2
      cases b with
      | none => simp at h4
      | some b =>
        refine Outcome.bind_ok.2 ⟨_, ihr h3 (d' + 1) (by omega), ?_⟩
        obtain ⟨c, h5, h6⟩ := Outcome.bind_ok.1 h4
        exact Outcome.bind_ok.2 ⟨_, h5, hp hd h6⟩
  | un op t ih =>
    intro d e h d' hd
    obtain ⟨a, h1, h2⟩ := Outcome.bind_ok.1 h
    cases a with
    | none => simp at h2
    | some a =>
      refine Outcome.bind_ok.2 ⟨_, ih h1 d' hd, ?_⟩
      obtain ⟨c, h5, h6⟩ := Outcome.bind_ok.1 h2
      exact Outcome.bind_ok.2 ⟨_, h5, hp hd h6⟩

theorem combine_abs (fm : FMath) (op : BinOp) (a b : Int) :
    combine fm op ⟨none, a⟩ ⟨none, b⟩ = linkBin fm op a b >>= fun v => .ok ⟨none, v⟩ := by
  cases op <;> rfl

theorem evalT_sound (fm : FMath) (env : Env) (ρ : Den) (hp : env.Places ρ) (t : Tree) : t.Ok → ∀ {d : Nat} {e : Entry},
    evalT fm env d t = .ok (some e) → ∃ v, e = ⟨none, v⟩ ∧ t.value fm ρ = some v := by
  induction t with
  | const v =>
    intro ht d e h
    have := (pushE_ok.1 h).2
    exact ⟨v, this.symm, inRange_some.2 ⟨rfl, ht⟩⟩
  | sym id =>
    intro ht d e h
    obtain ⟨a, h1, h2⟩ := Outcome.bind_ok.1 h
    have := (pushE_ok.1 h2).2
    subst this
    have hn := hp.absolute id a h1
    obtain ⟨s, v⟩ := a
    subst hn
    have := (hp.symbol id v).1 h1
    exact ⟨v, rfl, Option.bind_eq_some_iff.2 ⟨v, this, inRange_some.2 ⟨rfl, hp.symRange _ _ this⟩⟩⟩
  | bank id =>
    intro ht d e h
    obtain ⟨a, h1, h2⟩ := Outcome.bind_ok.1 h
    cases a with
    | none => simp at h2
    | some v =>
      have := (pushE_ok.1 h2).2
      have h3 := (hp.bank id v).1 h1
      exact ⟨v, this.symm, Option.bind_eq_some_iff.2 ⟨v, h3, inRange_some.2 ⟨rfl, hp.bankRange _ _ h3⟩⟩⟩
  | pcRel l r ihl ihr =>
    intro ht d e h
    obtain ⟨a, h1, h2⟩ := Outcome.bind_ok.1 h
    cases a with
    | none => simp at h2
    | some a =>
      obtain ⟨b, h3, h4⟩ := Outcome.bind_ok.1 h2
      cases b with
      | none => simp at h4
      | some b =>
        obtain ⟨c, h5, h6⟩ := Outcome.bind_ok.1 h4
        obtain ⟨x, rfl, hx⟩ := ihl ht.1 h1
        obtain ⟨y, rfl, hy⟩ := ihr ht.2 h3
        have := (pushE_ok.1 h6).2
        subst this
        obtain ⟨w, h7, h8⟩ := Outcome.bind_ok.1 h5
        cases h8
        have h9 := chk_ok.1 h7
        refine ⟨_, rfl, ?_⟩
        refine Option.bind_eq_some_iff.2 ⟨x, hx, Option.bind_eq_some_iff.2 ⟨y, hy, ?_⟩⟩
        exact Option.bind_eq_some_iff.2 ⟨w, inRange_some.2 h9, by rw [hp.pc]⟩
  | group l r ihl ihr =>
    intro ht d e h
    obtain ⟨a, h1, h2⟩ := Outcome.bind_ok.1 h
    cases a with
    | none => simp at h2
    | some a =>
      obtain ⟨b, h3, h4⟩ := Outcome.bind_ok.1 h2
      cases b with
      | none => simp at h4
      | some b =>
        obtain ⟨c, h5, h6⟩ := Outcome.bind_ok.1 h4
        obtain ⟨x, rfl, hx⟩ := ihl ht.1 h1
        obtain ⟨y, rfl, hy⟩ := ihr ht.2 h3
        have := (pushE_ok.1 h6).2
        subst this
        obtain ⟨w, h7, h8⟩ := Outcome.bind_ok.1 h5
        cases h8
        have h9 := (hp.group _ _ _).1 h7
        refine ⟨_, rfl, ?_⟩
        refine Option.bind_eq_some_iff.2 ⟨x, hx, Option.bind_eq_some_iff.2 ⟨y, hy, ?_⟩⟩
        exact Option.bind_eq_some_iff.2 ⟨w, h9, inRange_some.2 ⟨rfl, hp.groupRange _ _ _ h9⟩⟩
  | bin op l r ihl ihr =>
    intro ht d e h
    obtain ⟨a, h1, h2⟩ := Outcome.bind_ok.1 h
    cases a with
    | none => simp at h2
    | some a =>
      obtain ⟨b, h3, h4⟩ := Outcome.bind_ok.1 h2
      cases b with
      | none => simp at h4
      | some b =>
        obtain ⟨c, h5, h6⟩ := Outcome.bind_ok.1 h4
        obtain ⟨x, rfl, hx⟩ := ihl ht.1 h1
        obtain ⟨y, rfl, hy⟩ := ihr ht.2 h3
        have := (pushE_ok.1 h6).2
        subst this
        rw [combine_abs] at h5
        obtain ⟨w, h7, h8⟩ := Outcome.bind_ok.1 h5
        cases h8
        have h9 := (linkBin_iff fm op (value_range fm ρ l hx) (value_range fm ρ r hy) w).1 h7
        refine ⟨_, rfl, ?_⟩
        refine Option.bind_eq_some_iff.2 ⟨x, hx, Option.bind_eq_some_iff.2 ⟨y, hy, ?_⟩⟩
        exact Option.bind_eq_some_iff.2 ⟨w, h9.1, inRange_some.2 ⟨rfl, h9.2.1⟩⟩
  | un op t ih =>
    intro ht d e h
    obtain ⟨a, h1, h2⟩ := Outcome.bind_ok.1 h
    cases a with
    | none => simp at h2
    | some a =>
      obtain ⟨c, h5, h6⟩ := Outcome.bind_ok.1 h2
      obtain ⟨x, rfl, hx⟩ := ih ht h1
      have := (pushE_ok.1 h6).2
      subst this
      simp only [combineUn, Outcome.ok.injEq] at h5
      subst h5
      exact ⟨_, rfl, Option.bind_eq_some_iff.2 ⟨x, hx, by rw [linkUn_eq]⟩⟩

theorem depth_pos (t : Tree) : 1 ≤ t.depth := by
  induction t with
  | const => exact Nat.le_refl 1
  | sym => exact Nat.le_refl 1
  | bank => exact Nat.le_refl 1
  | pcRel l r hl hr => exact Nat.le_trans hl (Nat.le_max_left _ _)
  | group l r hl hr => exact Nat.le_trans hl (Nat.le_max_left _ _)
  | bin op l r hl hr => exact Nat.le_trans hl (Nat.le_max_left _ _)
  | un op e h => exact h

theorem evalT_complete (fm : FMath) (env : Env) (ρ : Den) (hp : env.Places ρ) (t : Tree) :
    t.Regular fm ρ → ∀ {d : Nat} {v : Int}, d + t.depth ≤ 256 → t.value fm ρ = some v →
    evalT fm env d t = .ok (some ⟨none, v⟩) := by
  induction t with
  | const v =>
    intro _ d w hd h
    have := (inRange_some.1 h).1
    subst this
    exact pushE_ok.2 ⟨by simp only [Tree.depth] at hd; omega, rfl⟩
  | sym id =>
    intro _ d w hd h
    obtain ⟨a, h1, h2⟩ := Option.bind_eq_some_iff.1 h
    have := (inRange_some.1 h2).1
    subst this
    exact Outcome.bind_ok.2 ⟨_, (hp.symbol id a).2 h1, pushE_ok.2 ⟨by simp only [Tree.depth] at hd; omega, rfl⟩⟩
  | bank id =>
    intro _ d w hd h
    obtain ⟨a, h1, h2⟩ := Option.bind_eq_some_iff.1 h
    have := (inRange_some.1 h2).1
    subst this
    exact Outcome.bind_ok.2 ⟨_, (hp.bank id a).2 h1, pushE_ok.2 ⟨by simp only [Tree.depth] at hd; omega, rfl⟩⟩
  | pcRel l r ihl ihr =>
    intro hr d w hd h
    simp only [Tree.depth] at hd
    obtain ⟨a, h1, h⟩ := Option.bind_eq_some_iff.1 h
    obtain ⟨b, h2, h⟩ := Option.bind_eq_some_iff.1 h
    obtain ⟨c, h3, h⟩ := Option.bind_eq_some_iff.1 h
    refine Outcome.bind_ok.2 ⟨_, ihl hr.1 (by omega) h1, ?_⟩
    refine Outcome.bind_ok.2 ⟨_, ihr hr.2 (by omega) h2, ?_⟩
    refine Outcome.bind_ok.2 ⟨⟨none, w⟩, ?_, pushE_ok.2 ⟨by omega, rfl⟩⟩
    refine Outcome.bind_ok.2 ⟨c, chk_ok.2 (inRange_some.1 h3), ?_⟩
    rw [← hp.pc]
    cases h
    rfl
  | group l r ihl ihr =>
    intro hr d w hd h
    simp only [Tree.depth] at hd
    obtain ⟨a, h1, h⟩ := Option.bind_eq_some_iff.1 h
    obtain ⟨b, h2, h⟩ := Option.bind_eq_some_iff.1 h
    obtain ⟨c, h3, h⟩ := Option.bind_eq_some_iff.1 h
    have := (inRange_some.1 h).1
    subst this
    refine Outcome.bind_ok.2 ⟨_, ihl hr.1 (by omega) h1, ?_⟩
    refine Outcome.bind_ok.2 ⟨_, ihr hr.2 (by omega) h2, ?_⟩
    refine Outcome.bind_ok.2 ⟨⟨none, c⟩, ?_, pushE_ok.2 ⟨by omega, rfl⟩⟩
    exact Outcome.bind_ok.2 ⟨c, (hp.group _ _ _).2 h3, rfl⟩
  | bin op l r ihl ihr =>
    intro hr d w hd h
    simp only [Tree.depth] at hd
    obtain ⟨a, h1, h⟩ := Option.bind_eq_some_iff.1 h
    obtain ⟨b, h2, h⟩ := Option.bind_eq_some_iff.1 h
    obtain ⟨c, h3, h⟩ := Option.bind_eq_some_iff.1 h
    have h4 := inRange_some.1 h
    have := h4.1
    subst this
    refine Outcome.bind_ok.2 ⟨_, ihl hr.1 (by omega) h1, ?_⟩
    refine Outcome.bind_ok.2 ⟨_, ihr hr.2.1 (by omega) h2, ?_⟩
    refine Outcome.bind_ok.2 ⟨⟨none, c⟩, ?_, pushE_ok.2 ⟨by omega, rfl⟩⟩
    rw [combine_abs]
    refine Outcome.bind_ok.2 ⟨c, ?_, rfl⟩
    refine (linkBin_iff fm op (value_range fm ρ l h1) (value_range fm ρ r h2) c).2 ⟨h3, h4.2, ?_⟩
    rintro ⟨ho, rfl, rfl⟩
    exact hr.2.2 ⟨ho, h1, h2⟩
  | un op t ih =>
    intro hr d w hd h
    simp only [Tree.depth] at hd
    obtain ⟨a, h1, h⟩ := Option.bind_eq_some_iff.1 h
    refine Outcome.bind_ok.2 ⟨_, ih hr hd h1, ?_⟩
    refine Outcome.bind_ok.2 ⟨⟨none, w⟩, ?_, pushE_ok.2 ⟨?_, rfl⟩⟩
    · simp only [combineUn, linkUn_eq]
      cases h; rfl
    · have := depth_pos t
      omega

theorem evalT_reloc (fm : FMath) (env : Env) (ρ : Den) (base : Nat → Int) (addr : RelSym → Int)
    (hp : env.Relocates ρ base addr) (t : Tree) : t.Ok → t.PlainDiff fm env → t.GroupsAbsolute fm env →
    ∀ {d : Nat} {e : Entry} {v : Int},
    evalT fm env d t = .ok (some e) → t.value fm ρ = some v → v = e.at addr := by
  induction t with
  | const v =>
    intro ht _ _ d e w h hv
    have := (pushE_ok.1 h).2
    subst this
    exact ((inRange_some.1 hv).1).symm
  | sym id =>
    intro ht _ _ d e w h hv
    obtain ⟨a, h1, h2⟩ := Outcome.bind_ok.1 h
    have := (pushE_ok.1 h2).2
    subst this
    obtain ⟨b, h3, h4⟩ := Option.bind_eq_some_iff.1 hv
    rw [hp.symbol id a h1] at h3
    cases h3
    exact ((inRange_some.1 h4).1).symm
  | bank id =>
    intro ht _ _ d e w h hv
    obtain ⟨a, h1, h2⟩ := Outcome.bind_ok.1 h
    cases a with
    | none => simp at h2
    | some x =>
      have := (pushE_ok.1 h2).2
      subst this
      obtain ⟨b, h3, h4⟩ := Option.bind_eq_some_iff.1 hv
      rw [hp.bank id x h1] at h3
      cases h3
      exact ((inRange_some.1 h4).1).symm
  | pcRel l r ihl ihr =>
    intro ht hs hg d e w h hv
    obtain ⟨a, h1, h2⟩ := Outcome.bind_ok.1 h
    cases a with
    | none => simp at h2
    | some a =>
      obtain ⟨b, h3, h4⟩ := Outcome.bind_ok.1 h2
      cases b with
      | none => simp at h4
      | some b =>
        obtain ⟨c, h5, h6⟩ := Outcome.bind_ok.1 h4
        have := (pushE_ok.1 h6).2
        subst this
        obtain ⟨x, hx, hv⟩ := Option.bind_eq_some_iff.1 hv
        obtain ⟨y, hy, hv⟩ := Option.bind_eq_some_iff.1 hv
        obtain ⟨z, hz, hv⟩ := Option.bind_eq_some_iff.1 hv
        have ex := ihl ht.1 hs.1 hg.1 h1 hx
        have ey := ihr ht.2 hs.2 hg.2 h3 hy
        obtain ⟨sa, va⟩ := a
        obtain ⟨sb, vb⟩ := b
        cases sa with
        | some s => simp [combinePcRel] at h5
        | none =>
          cases sb with
          | some s => simp [combinePcRel] at h5
          | none =>
            obtain ⟨q, h7, h8⟩ := Outcome.bind_ok.1 h5
            cases h8
            have h9 := (chk_ok.1 h7).1
            have h10 := (inRange_some.1 hz).1
            simp only [Entry.at] at ex ey ⊢
            cases hv
            rw [hp.pc]
            congr 2
            simp only at h9
            omega
  | group l r ihl ihr =>
    intro ht hs hg d e w h hv
    obtain ⟨x, y, rfl, rfl⟩ := hg
    obtain ⟨a, h1, h2⟩ := Outcome.bind_ok.1 h
    cases a with
    | none => simp at h2
    | some a =>
      obtain ⟨b, h3, h4⟩ := Outcome.bind_ok.1 h2
      cases b with
      | none => simp at h4
      | some b =>
        obtain ⟨c, h5, h6⟩ := Outcome.bind_ok.1 h4
        have := (pushE_ok.1 h6).2
        subst this
        have := (pushE_ok.1 h1).2
        subst this
        have := (pushE_ok.1 h3).2
        subst this
        obtain ⟨x', hx, hv⟩ := Option.bind_eq_some_iff.1 hv
        obtain ⟨y', hy, hv2⟩ := Option.bind_eq_some_iff.1 hv
        obtain ⟨z, hz, hv3⟩ := Option.bind_eq_some_iff.1 hv2
        have ex := (inRange_some.1 hx).1
        have ey := (inRange_some.1 hy).1
        subst ex; subst ey
        obtain ⟨q, h7, h8⟩ := Outcome.bind_ok.1 h5
        cases h8
        rw [hp.group _ _ _ h7] at hz
        cases hz
        exact ((inRange_some.1 hv3).1).symm
  | bin op l r ihl ihr =>
    intro ht hs hg d e w h hv
    obtain ⟨a, h1, h2⟩ := Outcome.bind_ok.1 h
    cases a with
    | none => simp at h2
    | some a =>
      obtain ⟨b, h3, h4⟩ := Outcome.bind_ok.1 h2
      cases b with
      | none => simp at h4
      | some b =>
        obtain ⟨c, h5, h6⟩ := Outcome.bind_ok.1 h4
        have := (pushE_ok.1 h6).2
        subst this
        obtain ⟨x, hx, hv⟩ := Option.bind_eq_some_iff.1 hv
        obtain ⟨y, hy, hv⟩ := Option.bind_eq_some_iff.1 hv
        obtain ⟨z, hz, hv⟩ := Option.bind_eq_some_iff.1 hv
        have hw := (inRange_some.1 hv).1
        subst hw
        have ex := ihl ht.1 hs.1 hg.1 h1 hx
        have ey := ihr ht.2 hs.2.1 hg.2 h3 hy
        have rx := value_range fm ρ l hx
        have ry := value_range fm ρ r hy
        obtain ⟨sa, va⟩ := a
        obtain ⟨sb, vb⟩ := b
        cases sa with
        | none =>
          cases sb with
          | none =>
            rw [combine_abs] at h5
            obtain ⟨q, h7, h8⟩ := Outcome.bind_ok.1 h5
            cases h8
            simp only [Entry.at] at ex ey ⊢
            subst ex; subst ey
            have := ((linkBin_iff fm op rx ry q).1 h7).1
            rw [this] at hz
            cases hz
            rfl
          | some s =>
            cases op <;> simp [combine] at h5
            case add =>
              obtain ⟨q, h7, h8⟩ := Outcome.bind_ok.1 h5
              cases h8
              have h9 := (chk_ok.1 h7).1
              simp only [meaning, Option.some.injEq] at hz
              simp only [Entry.at] at ex ey ⊢
              omega
        | some s =>
          cases sb with
          | none =>
            cases op <;> simp [combine] at h5
            case add =>
              obtain ⟨q, h7, h8⟩ := Outcome.bind_ok.1 h5
              cases h8
              have h9 := (chk_ok.1 h7).1
              simp only [meaning, Option.some.injEq] at hz
              simp only [Entry.at] at ex ey ⊢
              omega
            case sub =>
              obtain ⟨q, h7, h8⟩ := Outcome.bind_ok.1 h5
              cases h8
              have h9 := (chk_ok.1 h7).1
              simp only [meaning, Option.some.injEq] at hz
              simp only [Entry.at] at ex ey ⊢
              omega
          | some s' =>
            cases op <;> try (simp [combine] at h5; done)
            case sub =>
              simp only [combine] at h5
              by_cases hsec : s.sect = s'.sect
              · rw [if_pos hsec] at h5
                obtain ⟨q, h7, h8⟩ := Outcome.bind_ok.1 h5
                cases h8
                have h9 := (chk_ok.1 h7).1
                have hz2 := hs.2.2 rfl va vb s s'
                  (by rw [calculate_serialize fm env ht.1]; exact evalT_mono fm env l h1 0 (by omega))
                  (by rw [calculate_serialize fm env ht.2]; exact evalT_mono fm env r h3 0 (by omega))
                obtain ⟨ha0, hb0, hn⟩ := hz2
                cases hss : s.sect with
                | none => exact absurd hss hn
                | some i =>
                  have e1 := hp.placed s i hss
                  have e2 := hp.placed s' i (by rw [← hsec]; exact hss)
                  simp only [meaning, Option.some.injEq] at hz
                  simp only [Entry.at] at ex ey ⊢
                  omega
              · rw [if_neg hsec] at h5; simp at h5
  | un op t ih =>
    intro ht hs hg d e w h hv
    obtain ⟨a, h1, h2⟩ := Outcome.bind_ok.1 h
    cases a with
    | none => simp at h2
    | some a =>
      obtain ⟨c, h5, h6⟩ := Outcome.bind_ok.1 h2
      have := (pushE_ok.1 h6).2
      subst this
      obtain ⟨x, hx, hv⟩ := Option.bind_eq_some_iff.1 hv
      have ex := ih ht hs hg h1 hx
      obtain ⟨sa, va⟩ := a
      cases sa with
      | some s => simp [combineUn] at h5
      | none =>
        simp only [combineUn, Outcome.ok.injEq] at h5
        subst h5
        simp only [Entry.at] at ex ⊢
        subst ex
        cases hv
        exact (linkUn_eq _ _ _).symm

end Verif.Expr
