import Verif.Cpu.Z80.Table
/-!
# The table is right

All mnemonics, with all forms of operands, and all options. The forms are finitely many; the expressions are names here.
-/
namespace Verif.Cpu.Z80

/-- Nothing is known about the expressions. -/
def F0 : Facts := ⟨none, false, false, false⟩

/-- The handlers that look at the expressions. -/
def Mn.looks : Mn → Bool
  | .ld | .out | .rst | .im => true
  | _ => false

/-- The modes of the operands are those of the table. -/
def passes (m : Mn) (xs : List Opv) : Bool :=
  match xs with
  | [] => true
  | [x] =>
    if m.entry.modes2 != 0 && has m.entry.modes1 M.a && has m.entry.modes2 x.am.mode then true
    else allowed x.am.mode m.entry.modes1 && allowed 0 m.entry.modes2
  | [x, y] => allowed x.am.mode m.entry.modes1 && allowed y.am.mode m.entry.modes2
  | _ => false

theorem plan_passes (o : Opts) (F : Facts) (m : Mn) (xs : List Opv) (h : passes m xs = false) : plan o F m xs = .fail := by
  unfold plan
  by_cases hu : xs.all (·.usable o) = true
  · rw [if_pos hu]
    match xs, h with
    | [x], h =>
      unfold passes at h
      simp only at h ⊢
      by_cases h0 : m.entry.modes1 = 0
      · rw [if_pos h0]
      rw [if_neg h0]
      split
      · rename_i hc
        rw [if_pos hc] at h
        exact absurd h (by decide)
      · rename_i hc
        rw [if_neg hc] at h
        unfold dispatch
        rw [show ((({} : Am).mode)) = 0 from rfl, h]
        rfl
    | [x, y], h =>
      unfold passes at h
      simp only at h ⊢
      split
      · rfl
      · unfold dispatch
        rw [h]
        rfl
    | _ :: _ :: _ :: _, _ => rfl
  · rw [if_neg hu]

theorem run_facts (o : Opts) (F : Facts) (m : Mn) (m1 m2 : Am) (h : m.looks = false) :
    m.entry.handler.run o F m.entry m1 m2 = m.entry.handler.run o F0 m.entry m1 m2 := by
  cases m <;> first | rfl | exact absurd h (by decide)

theorem dispatch_facts (o : Opts) (F : Facts) (m : Mn) (m1 m2 : Am) (h : m.looks = false) :
    dispatch o F m.entry m1 m2 = dispatch o F0 m.entry m1 m2 := by
  unfold dispatch
  rw [run_facts o F m m1 m2 h]

theorem plan_facts (o : Opts) (F : Facts) (m : Mn) (xs : List Opv) (h : m.looks = false) : plan o F m xs = plan o F0 m xs := by
  unfold plan
  split
  · split <;> simp only [dispatch_facts o F m _ _ h]
  · rfl

theorem sem_facts (cpu : Cpu) (F : Facts) (m : Mn) (xs : List Opv) (hl : xs.length ≤ 2) (h : m.looks = false) :
    sem cpu F m xs = sem cpu F0 m xs := by
  rcases xs with _ | ⟨x, _ | ⟨y, _ | ⟨z, t⟩⟩⟩
  · cases m <;> first | rfl | exact absurd h (by decide)
  · cases m <;> first | rfl | exact absurd h (by decide) |
      (cases x <;> first | rfl | (rename_i r; cases r <;> rfl) | (rename_i r d; cases r <;> cases d <;> rfl))
  · cases m <;> first | rfl | exact absurd h (by decide) |
      (cases x <;> first | rfl | (cases y <;> rfl) | (rename_i i d; cases i <;> cases d <;> rfl) |
        (rename_i r; cases r <;> first | rfl | (cases y <;> first | rfl | (rename_i q; cases q <;> rfl))))
  · simp only [List.length_cons] at hl
    omega

theorem good_facts (o : Opts) (F : Facts) (m : Mn) (xs : List Opv) (hl : xs.length ≤ 2) (h : m.looks = false) :
    good o F m xs = good o F0 m xs := by
  unfold good
  rw [sem_facts o.cpu F m xs hl h, plan_facts o F m xs h]

/-- The line has no meaning, or not with any options. -/
def refuses (F : Facts) (m : Mn) (xs : List Opv) (cpu : Cpu) : Bool :=
  match sem cpu F m xs with
  | some is => opts.all fun o => o.cpu ≠ cpu || !legal o is || odd o m xs
  | none => true

/-- One mnemonic and one list of operands. -/
def checks (F : Facts) (m : Mn) (xs : List Opv) : Bool :=
  if passes m xs then opts.all fun o => good o F m xs || odd o m xs
  else refuses F m xs .gb && refuses F m xs .z80

theorem opts_all (o : Opts) : o ∈ opts := by
  obtain ⟨c, s, u⟩ := o
  cases c <;> cases s <;> cases u <;> decide

theorem good_of_checks {F : Facts} {m : Mn} {xs : List Opv} (h : checks F m xs = true) (o : Opts) :
    (good o F m xs || odd o m xs) = true := by
  unfold checks at h
  split at h
  · exact List.all_eq_true.1 h o (opts_all o)
  · rename_i hp
    have hp : passes m xs = false := by simpa using hp
    obtain ⟨hg, hz⟩ := Bool.and_eq_true_iff.1 h
    have h : refuses F m xs o.cpu = true := by
      cases o.cpu
      · exact hg
      · exact hz
    unfold refuses at h
    unfold good
    rw [plan_passes o F m xs hp]
    split
    · rename_i hs
      rw [hs] at h
      have h := List.all_eq_true.1 h o (opts_all o)
      simp only [ne_eq, not_true, decide_false, Bool.false_or, Bool.or_eq_true, Bool.not_eq_true'] at h
      rcases h with h | h
      · rw [h]
        rfl
      · rw [h, Bool.or_true]
    · rfl

/-- Mnemonics that can have two operands. -/
def Mn.two : Mn → Bool
  | .adc | .add | .and | .bit | .call | .cp | .ex | .in | .jp | .jr | .ld | .ldd | .ldi | .ldh | .ldhl | .or | .out | .res | .sbc
  | .set | .sub | .xor => true
  | _ => false

theorem two_none (m : Mn) (h : m.two = false) : m.entry.modes2 = 0 := by
  cases m <;> first | rfl | exact absurd h (by decide)

theorem sem_one (cpu : Cpu) (F : Facts) (m : Mn) (h : m.two = false) (x y : Opv) : sem cpu F m [x, y] = none := by
  cases m <;> first | rfl | exact absurd h (by decide) |
    (cases x <;> first | rfl | (rename_i r; cases r <;> rfl) | (rename_i r d; cases r <;> cases d <;> rfl))

theorem mode_pos (x : Opv) : x.am.mode ≠ 0 := by
  cases x with
  | reg x => cases x <;> decide
  | idx x d => cases x <;> cases d <;> simp [Opv.am] <;> decide
  | _ => simp [Opv.am]; decide

theorem passes_one (m : Mn) (h : m.two = false) (x y : Opv) : passes m [x, y] = false := by
  unfold passes
  simp only [two_none m h]
  have : allowed y.am.mode 0 = false := by
    have := mode_pos y
    simp [allowed, has, this]
  simp [this]

/-- Mnemonics that are checked with all pairs of operands. -/
def Mn.all2 : Mn → Bool
  | .ld | .add | .ex | .jr => true
  | _ => false

/-- The first operand is allowed. -/
def opens (m : Mn) (x : Opv) : Bool := allowed x.am.mode m.entry.modes1

theorem sem_opens (cpu : Cpu) (F : Facts) (m : Mn) (x y : Opv) (ha : m.all2 = false) (h : opens m x = false) :
    sem cpu F m [x, y] = none := by
  by_cases ht : m.two = false
  · exact sem_one cpu F m ht x y
  cases m <;> first | exact absurd ha (by decide) | exact absurd rfl ht |
    (cases x with
      | reg r => cases r <;> first | exact absurd h (by decide) | rfl |
        (cases y <;> first | rfl | (rename_i q; cases q <;> rfl))
      | idx i d => cases i <;> cases d <;> first | rfl | (cases y <;> first | rfl | (rename_i q; cases q <;> rfl))
      | imm e =>
        change opens _ (Opv.imm .a) = false at h
        first | exact absurd h (by decide) | rfl |
        (cases y <;> first | rfl | (rename_i q; cases q <;> rfl))
      | ind e =>
        change opens _ (Opv.ind .a) = false at h
        first | exact absurd h (by decide) | rfl |
        (cases y <;> first | rfl | (rename_i q; cases q <;> rfl))
      | spDisp e =>
        change opens _ (Opv.spDisp .a) = false at h
        first | exact absurd h (by decide) | rfl |
        (cases y <;> first | rfl | (rename_i q; cases q <;> rfl)))

theorem passes_opens (m : Mn) (x y : Opv) (h : opens m x = false) : passes m [x, y] = false := by
  unfold opens at h
  unfold passes
  simp [h]

def lists1 : List (List Opv) := [] :: (shapes .a).map (fun x => [x])
/-- Two operands, the first of which is allowed. -/
def listsOf (m : Mn) : List (List Opv) :=
  ((shapes .a).filter fun x => m.all2 || opens m x).flatMap fun x => (shapes .b).map fun y => [x, y]

def lists2 : List (List Opv) := (shapes .a).flatMap fun x => (shapes .b).map fun y => [x, y]

/-! ### Instructions that look at the expressions -/

/-- What is known about the addresses is the same. -/
def Same (F F' : Facts) (m : Am) : Prop := has m.mode M.immInd = true → F.high m.e = F'.high m.e

theorem same_reg (F F' : Facts) (x : Rg) : Same F F' x.am := by
  intro h
  exact absurd h (by cases x <;> decide)

theorem same_plusOne (F F' : Facts) (m : Am) : Same F F' (plusOne m) := by
  intro _
  unfold plusOne
  cases m.e <;> rfl

theorem handleLd_congr (o : Opts) (F F' : Facts) (n : Nat) : ∀ m1 m2 : Am, Same F F' m1 → Same F F' m2 →
    handleLd o F n m1 m2 = handleLd o F' n m1 m2 := by
  induction n with
  | zero => intros; rfl
  | succ n ih =>
    intro m1 m2 h1 h2
    have rr (x y : Rg) := ih x.am y.am (same_reg F F' x) (same_reg F F' y)
    have rm (x : Rg) := ih x.am m2 (same_reg F F' x) h2
    have rp (x : Rg) := ih x.am (plusOne m2) (same_reg F F' x) (same_plusOne F F' m2)
    have mr (x : Rg) := ih m1 x.am h1 (same_reg F F' x)
    have pr (x : Rg) := ih (plusOne m1) x.am (same_plusOne F F' m1) (same_reg F F' x)
    unfold handleLd
    simp only [rr, rm, rp, mr, pr]
    unfold Same at h1 h2
    by_cases i1 : has m1.mode M.immInd = true <;> by_cases i2 : has m2.mode M.immInd = true
    · rw [h1 i1, h2 i2]
    · rw [h1 i1]
      simp only [i2, Bool.and_false, Bool.false_eq_true, if_false]
    · rw [h2 i2]
      simp only [i1, Bool.false_and, Bool.and_false, Bool.false_eq_true, if_false]
    · simp only [i1, i2, Bool.false_and, Bool.and_false, Bool.false_eq_true, if_false]

/-- An address that is an expression. -/
def Opv.isInd : Opv → Bool
  | .ind _ => true
  | _ => false

theorem isInd_am (F F' : Facts) (x : Opv) (h : x.isInd = false) : Same F F' x.am := by
  intro hi
  refine absurd hi ?_
  cases x with
  | reg x => cases x <;> decide
  | idx i d => cases i <;> cases d <;> simp [Opv.am] <;> decide
  | ind e => cases h
  | imm e => simp [Opv.am]; decide
  | spDisp e => simp [Opv.am]; decide

theorem semLd_facts (cpu : Cpu) (F : Facts) (x y : Opv) (hx : x.isInd = false) (hy : y.isInd = false) :
    semLd cpu F x y = semLd cpu F0 x y := by
  cases x with
  | ind e => cases hx
  | reg r => cases y with
    | ind e => cases hy
    | reg q => cases r <;> first | rfl | (cases q <;> rfl)
    | _ => cases r <;> rfl
  | _ => cases y with
    | ind e => cases hy
    | reg q => first | rfl | (cases q <;> rfl)
    | _ => rfl

theorem ld_facts (o : Opts) (F F' : Facts) (xs : List Opv) (hs : ∀ x ∈ xs, Same F F' x.am)
    (hm : sem o.cpu F .ld xs = sem o.cpu F' .ld xs) : good o F .ld xs = good o F' .ld xs := by
  have hd (m1 m2 : Am) (h1 : Same F F' m1) (h2 : Same F F' m2) : dispatch o F Mn.ld.entry m1 m2 = dispatch o F' Mn.ld.entry m1 m2 := by
    unfold dispatch
    have := handleLd_congr o F F' 2 m1 m2 h1 h2
    rw [show Mn.ld.entry.handler.run o F Mn.ld.entry m1 m2 = handleLd o F 2 m1 m2 from rfl,
      show Mn.ld.entry.handler.run o F' Mn.ld.entry m1 m2 = handleLd o F' 2 m1 m2 from rfl, this]
  have he : Same F F' {} := fun h => absurd h (by decide)
  have hp : plan o F .ld xs = plan o F' .ld xs := by
    unfold plan
    split
    · match xs, hs with
      | [], _ => exact hd _ _ he he
      | [x], hs =>
        have hx := hs x (List.mem_singleton.2 rfl)
        simp only [hd implicitA x.am (fun h => absurd h (by decide)) hx, hd x.am {} hx he]
      | [x, y], hs =>
        simp only [hd x.am y.am (hs x (by simp)) (hs y (by simp))]
      | _ :: _ :: _ :: _, _ => rfl
    · rfl
  unfold good
  rw [hm, hp]

theorem ld_plain (o : Opts) (F : Facts) (xs : List Opv) (hl : xs.length ≤ 2) (hs : ∀ x ∈ xs, x.isInd = false) :
    good o F .ld xs = good o F0 .ld xs := by
  refine ld_facts o F F0 xs (fun x hx => isInd_am F F0 x (hs x hx)) ?_
  match xs, hs with
  | [], _ => rfl
  | [x], hs => exact semLd_facts o.cpu F (.reg .a) x rfl (hs x (by simp))
  | [x, y], hs => exact semLd_facts o.cpu F x y (hs x (by simp)) (hs y (by simp))
  | _ :: _ :: _ :: _, _ =>
    simp only [List.length_cons] at hl
    omega

theorem high_num (F : Facts) (e : Option E) : F.high e = (Facts.mk none F.highA F.highB false).high e := by
  cases e with
  | none => rfl
  | some e => cases e <;> rfl

theorem ld_high (o : Opts) (F : Facts) (xs : List Opv) (hl : xs.length ≤ 2) :
    good o F .ld xs = good o ⟨none, F.highA, F.highB, false⟩ .ld xs := by
  refine ld_facts o F _ xs (fun x _ _ => high_num F x.am.e) ?_
  have h (x y : Opv) : semLd o.cpu F x y = semLd o.cpu ⟨none, F.highA, F.highB, false⟩ x y := by
    unfold semLd
    simp only [high_num F]
  match xs with
  | [] => rfl
  | [x] => exact h (.reg .a) x
  | [x, y] => exact h x y
  | _ :: _ :: _ :: _ =>
    simp only [List.length_cons] at hl
    omega

theorem out_facts (o : Opts) (F : Facts) (xs : List Opv) : good o F .out xs = good o ⟨none, false, false, F.zeroB⟩ .out xs := rfl

/-! ### Instructions with a number -/

theorem mem_eight {n : Nat} (h : n ≤ 56) (h8 : n % 8 = 0) : n ∈ [0, 8, 16, 24, 32, 40, 48, 56] := by
  have : n = 0 ∨ n = 8 ∨ n = 16 ∨ n = 24 ∨ n = 32 ∨ n = 40 ∨ n = 48 ∨ n = 56 := by omega
  simpa using this

theorem and_eight : ∀ n : Nat, n < 64 → (n = n &&& 0x38 ↔ n % 8 = 0) := by decide

theorem plan_imm (o : Opts) (F : Facts) (m : Mn) (h1 : m.entry.modes1 = M.imm) (h2 : m.entry.modes2 = 0) :
    plan o F m [.imm .a] = if has o.cpu.flag m.entry.cpu then m.entry.handler.run o F m.entry (Opv.imm .a).am {} else .fail := by
  unfold plan
  have hu : ([Opv.imm .a].all (·.usable o)) = true := by
    have : has (Opv.imm .a).am.mode M.half = false := by decide
    simp [Opv.usable, this]
  rw [if_pos hu]
  simp only [h1, h2]
  rw [if_neg (by decide)]
  simp only [bne_self_eq_false, Bool.false_and, Bool.false_eq_true, if_false]
  unfold dispatch
  rw [h1, h2, if_pos (by decide)]
  have hc : (has o.cpu.flag m.entry.cpu && has o.cpu.flag (Opv.imm .a).am.cpu && has o.cpu.flag ({} : Am).cpu) = has o.cpu.flag m.entry.cpu := by
    rw [show has o.cpu.flag (Opv.imm .a).am.cpu = true from by cases o.cpu <;> decide,
      show has o.cpu.flag ({} : Am).cpu = true from by cases o.cpu <;> decide]
    simp
  rw [hc]

theorem rst_good (o : Opts) (F : Facts) (hn : ∀ v, F.num = some v → -2147483648 ≤ v ∧ v < 2147483648) :
    good o F .rst [.imm .a] = true := by
  have hplan : plan o F .rst [.imm .a] = handleRst F Mn.rst.entry := by
    rw [plan_imm o F .rst rfl rfl, if_pos (by cases o.cpu <;> decide)]
    rfl
  have hn' (hs : sem o.cpu F .rst [.imm .a] = none) (hp : handleRst F Mn.rst.entry = .fail) : good o F .rst [.imm .a] = true := by
    unfold good
    rw [hplan, hs, hp]
    rfl
  match hv : F.num with
  | none =>
    refine hn' ?_ ?_
    · unfold sem
      rw [hv]
    · unfold handleRst
      rw [hv]
  | some v =>
    have hr := hn v hv
    by_cases h : 0 ≤ v ∧ v ≤ 56 ∧ v % 8 = 0
    · have hs : sem o.cpu F .rst [.imm .a] = some [.rst v.toNat] := by
        unfold sem
        rw [hv]
        exact if_pos h
      have hu : Verif.Expr.u32 v = v.toNat := by unfold Verif.Expr.u32; omega
      have hp : handleRst F Mn.rst.entry = .ok [.const (0xC7 ||| v.toNat)] := by
        unfold handleRst
        rw [hv]
        simp only [hu]
        exact if_pos ((and_eight v.toNat (by omega)).2 (by omega))
      unfold good
      rw [hplan, hs, hp]
      have hm := mem_eight (n := v.toNat) (by omega) (by omega)
      generalize v.toNat = n at hm
      obtain ⟨c, s, u⟩ := o
      simp only [List.mem_cons, List.not_mem_nil, or_false] at hm
      rcases hm with h | h | h | h | h | h | h | h <;> subst h <;> cases c <;> cases s <;> cases u <;> decide +kernel
    · refine hn' ?_ ?_
      · unfold sem
        rw [hv]
        exact if_neg h
      · unfold handleRst
        rw [hv]
        refine if_neg fun he => ?_
        have hle : Verif.Expr.u32 v ≤ 0x38 := by
          rw [he]
          exact Nat.and_le_right
        have h8 := (and_eight (Verif.Expr.u32 v) (by omega)).1 he
        unfold Verif.Expr.u32 at hle h8
        omega

theorem im_good (o : Opts) (F : Facts) : good o F .im [.imm .a] = true := by
  have hplan : plan o F .im [.imm .a] = if o.cpu = .z80 then handleIm F else .fail := by
    rw [plan_imm o F .im rfl rfl]
    cases o.cpu <;> rfl
  have hn' (hs : sem o.cpu F .im [.imm .a] = none) (hp : handleIm F = .fail) : good o F .im [.imm .a] = true := by
    unfold good
    rw [hplan, hs, hp]
    cases o.cpu <;> rfl
  match hv : F.num with
  | none =>
    refine hn' ?_ ?_
    · unfold sem
      rw [hv]
    · unfold handleIm
      rw [hv]
  | some v =>
    by_cases h : 0 ≤ v ∧ v ≤ 2
    · have hs : sem o.cpu F .im [.imm .a] = some [.im v.toNat] := by
        unfold sem
        rw [hv]
        exact if_pos h
      have : v = 0 ∨ v = 1 ∨ v = 2 := by omega
      obtain ⟨c, s, u⟩ := o
      unfold good
      rw [hplan, hs]
      unfold handleIm
      rw [hv]
      rcases this with h | h | h <;> subst h <;> cases c <;> cases s <;> cases u <;> decide +kernel
    · refine hn' ?_ ?_
      · unfold sem
        rw [hv]
        exact if_neg h
      · unfold handleIm
        rw [hv]
        split
        · rename_i h'; cases h'; exact absurd ⟨by omega, by omega⟩ h
        · rename_i h'; cases h'; exact absurd ⟨by omega, by omega⟩ h
        · rename_i h'; cases h'; exact absurd ⟨by omega, by omega⟩ h
        · rfl

end Verif.Cpu.Z80
