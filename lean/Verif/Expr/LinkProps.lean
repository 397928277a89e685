import Verif.Expr.LinkEval
/-!
# C12: link-time expressions have their mathematical value
-/
namespace Verif.Expr

/-- C12, soundness: if the linker computes a value for the postfix form of an expression whose symbols have
addresses, it is the value of the expression. Expressions that have no value (a division by zero, an overflow,
a limit that is exceeded) are therefore never given one. -/
theorem C12_link_value_is_value (fm : FMath) (env : Env) (ρ : Den) (hp : env.Places ρ) (t : Tree) (ht : t.Ok)
    (e : Entry) (h : calculate fm env t.serialize = .ok (some e)) :
    e.sym = none ∧ t.value fm ρ = some e.value := by
  rw [calculate_serialize fm env ht] at h
  obtain ⟨v, rfl, hv⟩ := evalT_sound fm env ρ hp t ht h
  exact ⟨rfl, hv⟩

/-- C12, completeness: an expression that has a value gets it, if no more than 256 operands are waiting at any
time. -/
theorem C12_value_is_computed (fm : FMath) (env : Env) (ρ : Den) (hp : env.Places ρ) (t : Tree) (ht : t.Ok)
    (hr : t.Regular fm ρ) (hd : t.depth ≤ 256) (v : Int) (h : t.value fm ρ = some v) :
    calculate fm env t.serialize = .ok (some ⟨none, v⟩) := by
  rw [calculate_serialize fm env ht]
  exact evalT_complete fm env ρ hp t hr (by omega) h

/-- C12 for output formats that are relocated when they are loaded: whatever the addresses `base` of the sections
will be, the relocatable value that the linker computes denotes the value of the expression. -/
theorem C12_relocatable_value (fm : FMath) (env : Env) (ρ : Den) (base : Nat → Int) (addr : RelSym → Int)
    (hp : env.Relocates ρ base addr) (t : Tree) (ht : t.Ok) (hs : t.PlainDiff fm env) (hg : t.GroupsAbsolute fm env)
    (e : Entry) (v : Int) (h : calculate fm env t.serialize = .ok (some e)) (hv : t.value fm ρ = some v) :
    v = e.at addr := by
  rw [calculate_serialize fm env ht] at h
  exact evalT_reloc fm env ρ base addr hp t ht hs hg h hv

/-! ### A concrete case -/

/-- Fixed point functions for the examples. -/
def fm0 : FMath where
  fdiv _ _ := 0
  fmul _ _ := 0
  atan2 _ _ := 0
  un _ _ := 0
  fdiv_range _ _ := by decide
  fmul_range _ _ := by decide
  atan2_range _ _ := by decide
  un_range _ _ := by decide

/-- Two symbols at `$1234` and `$8000`, the second one in bank 3; the patch is at `$1000`. -/
def env0 : Env where
  symbol id := if id = 0 then .ok ⟨none, 0x1234⟩ else if id = 1 then .ok ⟨none, 0x8000⟩ else .fail
  bank id := if id = 1 then .ok (some 3) else .ok none
  groupProperty _ _ := .fail
  cpuLocation := 0x0FF0
  offset := 0x10

def den0 : Den where
  sym id := if id = 0 then some 0x1234 else if id = 1 then some 0x8000 else none
  bank id := if id = 1 then some 3 else none
  group _ _ := none
  pc := 0x1000

theorem places0 : env0.Places den0 where
  symbol id v := by
    unfold env0 den0; simp only
    by_cases h0 : id = 0
    · simp [h0]
    · by_cases h1 : id = 1 <;> simp [h0, h1]
  absolute id e h := by
    unfold env0 at h; simp only at h
    by_cases h0 : id = 0
    · rw [if_pos h0] at h; cases h; rfl
    · by_cases h1 : id = 1
      · rw [if_neg h0, if_pos h1] at h; cases h; rfl
      · rw [if_neg h0, if_neg h1] at h; cases h
  bank id v := by
    unfold env0 den0; simp only
    by_cases h1 : id = 1 <;> simp [h1]
  group a b v := by simp [env0, den0]
  pc := by decide
  symRange id v h := by
    unfold den0 at h; simp only at h
    by_cases h0 : id = 0
    · rw [if_pos h0] at h; cases h; decide
    · by_cases h1 : id = 1
      · rw [if_neg h0, if_pos h1] at h; cases h; decide
      · rw [if_neg h0, if_neg h1] at h; cases h
  bankRange id v h := by
    unfold den0 at h; simp only at h
    by_cases h1 : id = 1
    · rw [if_pos h1] at h; cases h; decide
    · rw [if_neg h1] at h; cases h
  groupRange a b v h := by simp [den0] at h

/-- `((b - a) >> 8) * BANK(b) - 7`, checked against a limit. -/
def tree0 : Tree :=
  .bin .highLimit (.bin .sub (.bin .mul (.bin .asr (.bin .sub (.sym 1) (.sym 0)) (.const 8)) (.bank 1)) (.const 7))
    (.const 400)

example : tree0.value fm0 den0 = some 320 := by decide
example : calculate fm0 env0 tree0.serialize = .ok (some ⟨none, 320⟩) :=
  C12_value_is_computed fm0 env0 den0 places0 tree0 (by unfold tree0; simp [Tree.Ok, I32])
    (by unfold tree0; simp [Tree.Regular]) (by decide) 320 (by decide)
example : calculate fm0 env0 tree0.serialize = .ok (some ⟨none, 320⟩) := by decide +kernel
/-- PC relative: `b + 2 - *`. -/
example : calculate fm0 env0 (Tree.pcRel (.const 2) (.sym 1)).serialize = .ok (some ⟨none, 0x7002⟩) := by
  decide +kernel

/-! ### Where the code does not do what is expected -/

/-- Two symbols of section 5, at offsets 16 and 4, that has no address yet. -/
def envRel : Env where
  symbol id := if id = 0 then .ok ⟨some ⟨0, some 5, 16, false⟩, 0⟩
    else if id = 1 then .ok ⟨some ⟨1, some 5, 4, false⟩, 0⟩
    else if id = 2 then .ok ⟨some ⟨2, none, 0, false⟩, 0⟩
    else .ok ⟨some ⟨3, none, 0, false⟩, 0⟩
  bank _ := .ok none
  groupProperty _ _ := .fail
  cpuLocation := -1
  offset := 0

/-- Section 5 at `$1000`, the symbols that were not found at `$2000` and `$3000`. -/
def addrRel (s : RelSym) : Int :=
  match s.sect with
  | some _ => 0x1000 + s.value
  | none => if s.id = 2 then 0x2000 else 0x3000

def denRel : Den where
  sym id := if id = 0 then some 0x1010 else if id = 1 then some 0x1004 else if id = 2 then some 0x2000 else some 0x3000
  bank _ := none
  group _ _ := none
  pc := -1

theorem relocates : envRel.Relocates denRel (fun _ => 0x1000) addrRel where
  symbol id e h := by
    unfold envRel at h; unfold denRel; simp only at h ⊢
    by_cases h0 : id = 0
    · rw [if_pos h0] at h ⊢; cases h; rfl
    · rw [if_neg h0] at h ⊢
      by_cases h1 : id = 1
      · rw [if_pos h1] at h ⊢; cases h; rfl
      · rw [if_neg h1] at h ⊢
        by_cases h2 : id = 2
        · rw [if_pos h2] at h ⊢; cases h; rfl
        · rw [if_neg h2] at h ⊢; cases h; rfl
  placed s i h := by unfold addrRel; rw [h]
  bank id v h := by simp [envRel] at h
  group a b v h := by simp [envRel] at h
  pc := rfl

/-- The hypotheses of `C12_relocatable_value` can be met: `a - b` and `a + 3` in a relocatable output. -/
example : calculate fm0 envRel (Tree.bin .sub (.sym 0) (.sym 1)).serialize = .ok (some ⟨none, 12⟩) := by decide +kernel
example : calculate fm0 envRel (Tree.bin .add (.sym 0) (.const 3)).serialize =
    .ok (some ⟨some ⟨0, some 5, 16, false⟩, 3⟩) := by decide +kernel
example : (0x1013 : Int) = Entry.at addrRel ⟨some ⟨0, some 5, 16, false⟩, 3⟩ :=
  C12_relocatable_value fm0 envRel denRel _ addrRel relocates (.bin .add (.sym 0) (.const 3))
    (by simp [Tree.Ok, I32]) (by simp [Tree.PlainDiff]) (by simp [Tree.GroupsAbsolute]) _ 0x1013
    (by decide +kernel) (by decide +kernel)

/-- C12 fails for relocatable output: `(a + 1) - b` for two symbols of one section that has no address yet is
computed as `a - b`. -/
theorem C12_difference_drops_addend :
    ∃ (env : Env) (ρ : Den) (base : Nat → Int) (addr : RelSym → Int) (t : Tree),
      env.Relocates ρ base addr ∧ t.Ok ∧
      t.value fm0 ρ = some 13 ∧ calculate fm0 env t.serialize = .ok (some ⟨none, 12⟩) :=
  ⟨envRel, denRel, _, addrRel, .bin .sub (.bin .add (.sym 0) (.const 1)) (.sym 1), relocates,
    by simp [Tree.Ok, I32], by decide +kernel, by decide +kernel⟩

/-- C12 fails for imports that are left to another linker: the difference of two unrelated symbols that were not
found is computed as 0. -/
theorem C12_difference_of_unknown_symbols :
    ∃ (env : Env) (ρ : Den) (base : Nat → Int) (addr : RelSym → Int) (t : Tree),
      env.Relocates ρ base addr ∧ t.Ok ∧
      t.value fm0 ρ = some (-0x1000) ∧ calculate fm0 env t.serialize = .ok (some ⟨none, 0⟩) :=
  ⟨envRel, denRel, _, addrRel, .bin .sub (.sym 2) (.sym 3), relocates,
    by simp [Tree.Ok], by decide +kernel, by decide +kernel⟩

end Verif.Expr
