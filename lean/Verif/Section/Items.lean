import Verif.Section.Refine
/-!
# Operands of data directives
-/
namespace Verif.Section
open Spec (Cell Area World Result)

variable {α : Type}

/-- What it means that an outcome of the program is as the meaning says. -/
def Agrees (cfg : Config) (s : State α) (r : Result (World α)) (o : Outcome (State α)) : Prop :=
  match r with
  | .good w' => ∃ s', o = .ok s' ∧ s'.errors = s.errors ∧ Match cfg s' w'
  | .bad => ∀ s', o = .ok s' → s.errors < s'.errors
  | .outside => True

theorem step_agrees {cfg : Config} (hv : cfg.Valid) {s : State α} {w : World α} (h : Match cfg s w) (env : Env)
    (op : Op α) : Agrees cfg s (Spec.step cfg env op w) (step cfg env op s) := step_refines hv h env op

theorem emit_append {pos : Pos} {as bs : Bytes} {w w1 : World α} (h : Spec.emit pos as [] w = .good w1) :
    Spec.emit pos bs [] w1 = Spec.emit pos (as ++ bs) [] w := by
  unfold Spec.emit at h
  cases hy : w.area with
  | none => simp [hy] at h
  | some y =>
    rw [hy] at h
    simp only at h
    split at h
    · cases h
    · rename_i hb
      split at h
      · cases h
        unfold Spec.emit
        rw [area_put hy, hy]
        simp only [hb, put_put]
        simp [Nat.add_assoc]
      · cases h

theorem emit_outside {pos : Pos} {as bs : Bytes} {w : World α} (h : Spec.emit pos as [] w = .outside) :
    Spec.emit pos (as ++ bs) [] w = .outside := by
  unfold Spec.emit at h ⊢
  cases hy : w.area with
  | none => simp [hy] at h
  | some y =>
    rw [hy] at h
    simp only at h ⊢
    split at h
    · cases h
    · rename_i hb
      rw [if_neg hb]
      split at h
      · cases h
      · rename_i hl
        rw [if_neg]
        simp only [List.length_append]
        omega

theorem emit_bad_append {pos : Pos} {as bs : Bytes} {w : World α} (h : Spec.emit pos as [] w = .bad) :
    Spec.emit pos bs [] w = .bad := by
  unfold Spec.emit at h ⊢
  cases hy : w.area with
  | none => rfl
  | some y =>
    rw [hy] at h
    simp only at h ⊢
    split at h
    · rename_i hb
      rw [if_pos hb]
    · split at h <;> cases h

theorem digits_char (big : Bool) (b : UInt8) : Spec.digits big 1 b.toNat = [b] := by
  cases big <;> simp [Spec.digits, List.range, List.range.loop]

theorem outputText_agrees {cfg : Config} (hv : cfg.Valid) (hd : cfg.wordSize ∣ 1) (env : Env) : ∀ (bs : Bytes) {s : State α}
    {w : World α}, Match cfg s w → bs ≠ [] → 0 ∉ bs → Agrees cfg s (Spec.emit env.pos bs [] w) (outputText cfg env bs s)
  | [], _, _, _, hne, _ => absurd rfl hne
  | b :: bs, s, w, h, _, h0 => by
    rw [outputText, if_neg (fun e => h0 (by rw [e]; exact List.mem_cons_self))]
    have hs := step_agrees hv h env (.const .one b.toNat)
    rw [Spec.step, Size.bytes, if_pos hd, digits_char] at hs
    cases he : Spec.emit env.pos [b] [] w with
    | good w1 =>
      rw [he] at hs
      obtain ⟨s1, h1, h2, h3⟩ := hs
      rw [step] at h1
      rw [h1, ok_bind]
      cases bs with
      | nil => 
        rw [he]
        exact ⟨s1, rfl, h2, h3⟩
      | cons c cs =>
        have ih := outputText_agrees hv hd env (c :: cs) h3 (by simp) (fun hc => h0 (List.mem_cons_of_mem _ hc))
        rw [emit_append he] at ih
        rw [show b :: c :: cs = [b] ++ (c :: cs) from rfl]
        revert ih
        unfold Agrees
        rw [h2]
        exact id
    | bad =>
      rw [emit_bad_append he]
      rw [he] at hs
      intro s' hs'
      obtain ⟨s1, h1, h4⟩ := bind_ok hs'
      refine Nat.lt_of_lt_of_le (hs s1 h1) ?_
      exact outputText_errors env bs h4
    | outside =>
      rw [show b :: bs = [b] ++ bs from rfl, emit_outside he]
      trivial
where
  outputText_errors {cfg : Config} (env : Env) : ∀ (bs : Bytes) {s s' : State α}, outputText cfg env bs s = .ok s' →
      s.errors ≤ s'.errors
    | [], s, s', h => by
      cases h
      exact Nat.le_refl _
    | b :: bs, s, s', h => by
      rw [outputText] at h
      split at h
      · cases h
        exact Nat.le_refl _
      · obtain ⟨s1, h1, h2⟩ := bind_ok h
        exact Nat.le_trans (outputConst_errors h1) (outputText_errors env bs h2)

theorem fits_range (size : Size) (v : Int) (s : State α) (h : Spec.fits size v = true) : checkSize size v s = (v, s) := by
  cases size <;> simp only [checkSize, checkRange, Spec.fits] at h ⊢
  · simp only [Bool.and_eq_true, decide_eq_true_eq] at h
    rw [if_pos (by omega)]
  · simp only [Bool.and_eq_true, decide_eq_true_eq] at h
    rw [if_pos (by omega)]

theorem unfit_range (size : Size) (v : Int) (s : State α) (h : Spec.fits size v = false) :
    checkSize size v s = (0, s.error) := by
  cases size <;> simp only [checkSize, checkRange, Spec.fits] at h ⊢
  · simp only [Bool.and_eq_false_iff, decide_eq_false_iff_not] at h
    rw [if_neg (by omega)]
  · simp only [Bool.and_eq_false_iff, decide_eq_false_iff_not] at h
    rw [if_neg (by omega)]
  · cases h

theorem outputExpr_errors {cfg : Config} {env : Env} {size : Size} {e : Operand α} {s s' : State α}
    (h : outputExpr cfg env size e s = .ok s') : s.errors ≤ s'.errors := step_errors (op := .expr size e) h

theorem outputValue_agrees {cfg : Config} (hv : cfg.Valid) {s : State α} {w : World α} (h : Match cfg s w) (env : Env)
    {size : Size} (hd : cfg.wordSize ∣ size.bytes) {v : Int} (hf : Spec.fits size v = true) :
    Agrees cfg s (Spec.emit env.pos (Spec.digits env.big size.bytes (v % 2 ^ 32).toNat) [] w)
      (outputValue cfg env size v s) := by
  unfold outputValue
  rw [fits_range size v s hf]
  have := step_agrees hv h env (.expr size (.known v))
  rw [Spec.step, if_pos hd] at this
  exact this

theorem charValue_number (bs : Bytes) (h : bs.length ≤ 4) : charValue bs = Spec.number bs := by
  match bs, h with
  | [], _ => rfl
  | [a], _ =>
    have := a.toNat_lt
    simp [charValue, Spec.number]
  | [a, b], _ =>
    have := a.toNat_lt
    have := b.toNat_lt
    simp [charValue, Spec.number]
    omega
  | [a, b, c], _ =>
    have := a.toNat_lt
    have := b.toNat_lt
    have := c.toNat_lt
    simp [charValue, Spec.number]
    omega
  | [a, b, c, d], _ =>
    have := a.toNat_lt
    have := b.toNat_lt
    have := c.toNat_lt
    have := d.toNat_lt
    simp [charValue, Spec.number]
    omega

theorem number_lt (bs : Bytes) : ∀ n, bs.length ≤ n → Spec.number bs < 256 ^ n := by
  have key : ∀ (bs : Bytes) (v : Nat), bs.foldl (fun v b => v * 256 + b.toNat) v < (v + 1) * 256 ^ bs.length := by
    intro bs
    induction bs with
    | nil => intro v; simp
    | cons b bs ih =>
      intro v
      have := b.toNat_lt
      simp only [List.foldl_cons, List.length_cons]
      refine Nat.lt_of_lt_of_le (ih _) ?_
      rw [Nat.pow_succ, Nat.mul_comm (256 ^ bs.length) 256, ← Nat.mul_assoc]
      exact Nat.mul_le_mul_right _ (by omega)
  intro n hn
  have := key bs 0
  simp only [Nat.zero_add, Nat.one_mul] at this
  exact Nat.lt_of_lt_of_le this (Nat.pow_le_pow_right (by decide) hn)

theorem asSigned_mod {v : Nat} (h : v < 2 ^ 32) : (dataItem.asSigned v % 2 ^ 32).toNat = v := by
  unfold dataItem.asSigned
  split <;> omega

theorem text_fits {size : Size} {bs : Bytes} (h : bs.length ≤ size.bytes) :
    Spec.fits size (dataItem.asSigned (charValue bs)) = true := by
  have h4 : bs.length ≤ 4 := Nat.le_trans h (by cases size <;> decide)
  rw [charValue_number bs h4]
  have hl := number_lt bs _ h
  unfold dataItem.asSigned
  cases size <;> simp only [Size.bytes] at hl <;> simp only [Spec.fits, Bool.and_eq_true, decide_eq_true_eq] <;>
    split <;> omega

theorem item_agrees {cfg : Config} (hv : cfg.Valid) {s : State α} {w : World α} (h : Match cfg s w) (env : Env)
    (rng : Size → α → α) (size : Size) (last : Bool) (it : Item α) :
    match Spec.item cfg env rng size last it w with
    | .good w' => ∃ s', dataItem cfg env rng size last it s = .ok (true, s') ∧ s'.errors = s.errors ∧ Match cfg s' w'
    | .bad => ∀ r, dataItem cfg env rng size last it s = .ok r → s.errors < r.2.errors
    | .outside => True := by
  have lift : ∀ {r : Result (World α)} {o : Outcome (State α)}, Agrees cfg s r o →
      match r with
      | .good w' => ∃ s', (o.bind fun s => Outcome.ok (true, s)) = .ok (true, s') ∧ s'.errors = s.errors ∧ Match cfg s' w'
      | .bad => ∀ p : Bool × State α, (o.bind fun s => Outcome.ok (true, s)) = .ok p → s.errors < p.2.errors
      | .outside => True := by
    intro r o ha
    cases r with
    | good w' =>
      obtain ⟨s', h1, h2, h3⟩ := ha
      exact ⟨s', by rw [h1]; rfl, h2, h3⟩
    | bad =>
      intro p hp
      obtain ⟨s1, h1, h2⟩ := bind_ok hp
      cases h2
      exact ha s1 h1
    | outside => trivial
  unfold Spec.item
  by_cases hd : cfg.wordSize ∣ size.bytes
  · rw [if_pos hd]
    cases it with
    | const v =>
      simp only [Spec.itemBytes, dataItem]
      by_cases hf : Spec.fits size v = true
      · rw [if_pos hf]
        exact lift (outputValue_agrees hv h env hd hf)
      · rw [if_neg hf]
        intro r hr
        obtain ⟨s1, h1, h2⟩ := bind_ok hr
        cases h2
        unfold outputValue at h1
        rw [unfit_range size v s (by simpa using hf)] at h1
        have := outputExpr_errors h1
        simp only [State.error] at this
        exact this
    | later e =>
      simp only [Spec.itemBytes, dataItem]
      have := step_agrees hv h env (.expr size (.later (rng size e)))
      rw [Spec.step, if_pos hd] at this
      exact lift this
    | text bs =>
      simp only [Spec.itemBytes, dataItem]
      by_cases h1 : size = .one
      · subst h1
        rw [if_pos rfl]
        simp only [true_and]
        by_cases h0 : bs = [] ∨ 0 ∈ bs
        · rw [if_pos h0]
          trivial
        · rw [if_neg h0]
          have hne : bs ≠ [] := fun e => h0 (.inl e)
          have hz : 0 ∉ bs := fun e => h0 (.inr e)
          by_cases hl : bs.length ≤ Size.one.bytes
          · rw [if_pos hl]
            match bs, hne, hl with
            | [b], _, hl =>
              have hb4 : [b].length ≤ 4 := by simp
              have ha := outputValue_agrees hv h env hd (text_fits (size := .one) (bs := [b]) hl)
              rw [charValue_number [b] hb4, asSigned_mod (by
                have := number_lt [b] 1 (by simp)
                omega)] at ha
              rw [charValue_number [b] hb4]
              have hn : Spec.number [b] = b.toNat := by simp [Spec.number]
              rw [hn, Size.bytes, digits_char] at ha
              rw [hn]
              exact lift ha
          · rw [if_neg hl]
            simp only [if_true]
            exact lift (outputText_agrees hv hd env bs h hne hz)
      · rw [if_neg h1]
        by_cases hl : bs.length ≤ size.bytes
        · rw [if_pos hl, if_pos hl]
          have h4 : bs.length ≤ 4 := Nat.le_trans hl (by cases size <;> decide)
          have ha := outputValue_agrees hv h env hd (text_fits hl)
          rw [charValue_number bs h4, asSigned_mod (by
            have := number_lt bs 4 h4
            omega)] at ha
          simp only [h1, false_and, if_false]
          rw [charValue_number bs h4]
          exact lift ha
        · rw [if_neg hl, if_neg hl, if_neg h1]
          intro r hr
          obtain ⟨s1, h2, h3⟩ := bind_ok hr
          cases h3
          have := skipBytes_errors h2
          simp only [State.error] at this ⊢
          omega
    | nothing =>
      simp only [Spec.itemBytes, dataItem]
      by_cases hc : size ≠ .one ∧ last = true
      · rw [if_pos hc, if_pos hc]
        intro r hr
        obtain ⟨s1, h2, h3⟩ := bind_ok hr
        cases h3
        have := skipBytes_errors h2
        simp only [State.error] at this
        exact this
      · rw [if_neg hc, if_neg hc]
        by_cases h2 : cfg.wordSize ≤ 2
        · rw [if_pos h2]
          have := step_agrees hv h env (.skip size.bytes)
          rw [Spec.step, if_pos ⟨hd, h2⟩] at this
          exact lift this
        · rw [if_neg h2]
          trivial
  · rw [if_neg hd]
    trivial

theorem dataItem_errors {cfg : Config} {env : Env} {rng : Size → α → α} {size : Size} {last : Bool} {it : Item α}
    {s : State α} {r : Bool × State α} (h : dataItem cfg env rng size last it s = .ok r) : s.errors ≤ r.2.errors := by
  have hval : ∀ {v : Int} {s' : State α}, outputValue cfg env size v s = .ok s' → s.errors ≤ s'.errors := by
    intro v s' hs
    unfold outputValue at hs
    cases hf : Spec.fits size v with
    | true =>
      rw [fits_range size v s hf] at hs
      exact outputExpr_errors hs
    | false =>
      rw [unfit_range size v s hf] at hs
      have := outputExpr_errors hs
      simp only [State.error] at this
      omega
  cases it with
  | const v =>
    obtain ⟨s1, h1, h2⟩ := bind_ok h
    cases h2
    exact hval h1
  | later e =>
    obtain ⟨s1, h1, h2⟩ := bind_ok h
    cases h2
    exact outputExpr_errors h1
  | text bs =>
    simp only [dataItem] at h
    split at h
    · obtain ⟨s1, h1, h2⟩ := bind_ok h
      cases h2
      exact hval h1
    · split at h
      · obtain ⟨s1, h1, h2⟩ := bind_ok h
        cases h2
        exact outputText_agrees.outputText_errors env bs h1
      · obtain ⟨s1, h1, h2⟩ := bind_ok h
        cases h2
        have := skipBytes_errors h1
        simp only [State.error] at this ⊢
        omega
  | nothing =>
    simp only [dataItem] at h
    obtain ⟨s1, h1, h2⟩ := bind_ok h
    cases h2
    have := skipBytes_errors h1
    split at this
    · simp only [State.error] at this
      exact Nat.le_of_succ_le this
    · exact this

theorem dataItems_errors {cfg : Config} {env : Env} {rng : Size → α → α} {size : Size} : ∀ {its : List (Item α)}
    {s s' : State α}, dataItems cfg env rng size its s = .ok s' → s.errors ≤ s'.errors
  | [], s, s', h => by
    cases h
    exact Nat.le_refl _
  | it :: its, s, s', h => by
    rw [dataItems] at h
    obtain ⟨r, h1, h2⟩ := bind_ok h
    split at h2
    · exact Nat.le_trans (dataItem_errors h1) (dataItems_errors h2)
    · cases h2
      exact dataItem_errors h1

theorem items_agree {cfg : Config} (hv : cfg.Valid) (env : Env) (rng : Size → α → α) (size : Size) :
    ∀ (its : List (Item α)) {s : State α} {w : World α}, Match cfg s w →
    Agrees cfg s (Spec.items cfg env rng size its w) (dataItems cfg env rng size its s)
  | [], s, w, h => ⟨s, rfl, rfl, h⟩
  | it :: its, s, w, h => by
    rw [Spec.items, dataItems]
    have hi := item_agrees hv h env rng size its.isEmpty it
    cases hr : Spec.item cfg env rng size its.isEmpty it w with
    | good w1 =>
      rw [hr] at hi
      obtain ⟨s1, h1, h2, h3⟩ := hi
      rw [h1, ok_bind]
      simp only [if_true]
      have ih := items_agree hv env rng size its h3
      revert ih
      unfold Agrees
      rw [h2]
      exact id
    | bad =>
      rw [hr] at hi
      intro s' hs'
      obtain ⟨r, h1, h2⟩ := bind_ok hs'
      refine Nat.lt_of_lt_of_le (hi r h1) ?_
      split at h2
      · exact dataItems_errors h2
      · cases h2
        exact Nat.le_refl _
    | outside => trivial

/-! ## The bytes of a directive -/

theorem emit_cells {pos : Pos} {bs : Bytes} {hs : List (Patch α)} {w w' : World α} {y : Area α} (hy : w.area = some y)
    (h : Spec.emit pos bs hs w = .good w') :
    y.group.bss = false ∧
      w' = w.put { y with cells := y.cells ++ bs.map fun b => ⟨b, pos⟩, holes := y.holes ++ hs } := by
  unfold Spec.emit at h
  rw [hy] at h
  simp only at h
  split at h
  · cases h
  · rename_i hb
    split at h
    · cases h
      exact ⟨by simpa using hb, rfl⟩
    · cases h

theorem item_cells {cfg : Config} {env : Env} {rng : Size → α → α} {size : Size} {last : Bool} {it : Item α}
    {w w' : World α} {y : Area α} (hy : w.area = some y) (hb : y.group.bss = false)
    (h : Spec.item cfg env rng size last it w = .good w') :
    ∃ bs hs, Spec.itemBytes env size it = some bs ∧
      w' = w.put { y with cells := y.cells ++ bs.map fun b => ⟨b, env.pos⟩, holes := y.holes ++ hs } := by
  unfold Spec.item at h
  split at h
  · cases hi : Spec.itemBytes env size it with
    | none =>
      rw [hi] at h
      cases h
    | some bs =>
      rw [hi] at h
      simp only at h
      cases it with
      | const v => exact ⟨bs, [], rfl, (emit_cells hy h).2⟩
      | later e => exact ⟨bs, _, rfl, (emit_cells hy h).2⟩
      | text t =>
        simp only at h
        split at h
        · cases h
        · exact ⟨bs, [], rfl, (emit_cells hy h).2⟩
      | nothing =>
        simp only at h
        split at h
        · cases h
        · split at h
          · simp only [Spec.itemBytes, Option.some.injEq] at hi
            subst hi
            unfold Spec.space at h
            rw [if_neg (by cases size <;> decide), hy] at h
            simp only at h
            split at h
            · cases h
              refine ⟨_, [], rfl, ?_⟩
              simp [hb]
            · cases h
          · cases h
  · cases h

theorem items_cells {cfg : Config} {env : Env} {rng : Size → α → α} {size : Size} : ∀ {its : List (Item α)} {w w' : World α}
    {y : Area α}, w.area = some y → y.group.bss = false → Spec.items cfg env rng size its w = .good w' →
    ∃ bs : List Bytes, its.map (Spec.itemBytes env size) = bs.map some ∧ ∃ hs,
      w' = w.put { y with cells := y.cells ++ bs.flatten.map fun b => ⟨b, env.pos⟩, holes := y.holes ++ hs }
  | [], w, w', y, hy, hb, h => by
    cases h
    refine ⟨[], rfl, [], ?_⟩
    simp only [List.flatten_nil, List.map_nil, List.append_nil]
    exact (put_self hy).symm
  | it :: its, w, w', y, hy, hb, h => by
    rw [Spec.items] at h
    cases hr : Spec.item cfg env rng size its.isEmpty it w with
    | good w1 =>
      rw [hr] at h
      obtain ⟨bs, hs, h1, h2⟩ := item_cells hy hb hr
      subst h2
      simp only at h
      have ha := area_put (y := { y with cells := y.cells ++ bs.map fun b => ⟨b, env.pos⟩, holes := y.holes ++ hs }) hy
      obtain ⟨bss, h3, hs', h4⟩ := items_cells ha hb h
      refine ⟨bs :: bss, by simp [h1, h3], hs ++ hs', ?_⟩
      rw [h4, put_put]
      simp
    | bad =>
      rw [hr] at h
      cases h
    | outside =>
      rw [hr] at h
      cases h

end Verif.Section
