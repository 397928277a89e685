import Verif.Expr.Link
import Verif.Expr.Tree
import Verif.Expr.OpsLemmas
namespace Verif

namespace Outcome
variable {α β γ : Type}
@[simp] theorem ok_bind (a : α) (f : α → Outcome β) : (Outcome.ok a >>= f) = f a := rfl
@[simp] theorem fail_bind (f : α → Outcome β) : ((Outcome.fail : Outcome α) >>= f) = .fail := rfl
@[simp] theorem ub_bind (f : α → Outcome β) : ((Outcome.ub : Outcome α) >>= f) = .ub := rfl

theorem bind_ok {x : Outcome α} {f : α → Outcome β} {b : β} :
    (x >>= f) = .ok b ↔ ∃ a, x = .ok a ∧ f a = .ok b := by
  cases x <;> simp
end Outcome

namespace Expr

/-- Put a value on a stack of `d` values. -/
def pushE (d : Nat) (e : Entry) : Outcome (Option Entry) := if d ≥ 256 then .fail else .ok (some e)

/-- The machine's result for a tree, when `d` values are on the stack already. -/
def evalT (fm : FMath) (env : Env) (d : Nat) : Tree → Outcome (Option Entry)
  | .const v => pushE d ⟨none, v⟩
  | .sym id => do
    let e ← env.symbol id
    pushE d e
  | .bank id => do
    match ← env.bank id with
    | none => .ok none
    | some v => pushE d ⟨none, v⟩
  | .pcRel l r => do
    match ← evalT fm env d l with
    | none => .ok none
    | some a =>
      match ← evalT fm env (d + 1) r with
      | none => .ok none
      | some b => do
        let e ← combinePcRel env a b
        pushE d e
  | .group l r => do
    match ← evalT fm env d l with
    | none => .ok none
    | some a =>
      match ← evalT fm env (d + 1) r with
      | none => .ok none
      | some b => do
        let e ← combineGroup env a b
        pushE d e
  | .bin op l r => do
    match ← evalT fm env d l with
    | none => .ok none
    | some a =>
      match ← evalT fm env (d + 1) r with
      | none => .ok none
      | some b => do
        let e ← combine fm op a b
        pushE d e
  | .un op e => do
    match ← evalT fm env d e with
    | none => .ok none
    | some a => do
      let e ← combineUn fm op a
      pushE d e

/-- Continue with the rest of the byte string. -/
def cont (fm : FMath) (env : Env) (rest : Bytes) (st : List Entry) : Option Entry → Outcome (Option (List Entry))
  | none => .ok none
  | some e => run fm env rest (e :: st)

theorem push_bind (fm : FMath) (env : Env) (rest : Bytes) (st : List Entry) (e : Entry) :
    (push e st >>= fun st => run fm env rest st) = pushE st.length e >>= cont fm env rest st := by
  unfold push pushE
  by_cases h : st.length ≥ 256
  · rw [if_pos h, if_pos h]; rfl
  · rw [if_neg h, if_neg h]; rfl

theorem word_put32le {n : Nat} (h : n < 4294967296) :
    word (byte n) (byte (n / 256)) (byte (n / 65536)) (byte (n / 16777216)) = n := by
  simp only [word, byte_toNat]; omega

theorem toI32_u32 {v : Int} (h : I32 v) : toI32 (u32 v) = v := by
  unfold I32 at h; unfold toI32 u32; omega

theorem u32_lt (v : Int) : u32 v < 4294967296 := by unfold u32; omega

theorem run_op (fm : FMath) (env : Env) (c : Nat) (o : StackOp) (hc : c < 256) (ho : stackOp c = some o)
    (h1 : c ≠ 30) (h2 : c ≠ 31) (h3 : c ≠ 33) (rest : Bytes) (st : List Entry) :
    run fm env (put8 c ++ rest) st = step fm env o st >>= fun st => run fm env rest st := by
  have e : (byte c).toNat = c := by rw [byte_toNat]; omega
  rw [run.eq_def]
  simp only [put8, List.cons_append, List.nil_append, e, if_neg h1, if_neg h2, if_neg h3, ho]

theorem run_serialize (fm : FMath) (env : Env) (t : Tree) : t.Ok → ∀ (rest : Bytes) (st : List Entry),
    run fm env (t.serialize ++ rest) st = evalT fm env st.length t >>= cont fm env rest st := by
  induction t with
  | const v =>
    intro h rest st
    have e : (byte 30).toNat = 30 := by decide
    simp only [Tree.serialize, put8, put32le, List.cons_append, List.nil_append, run, e, if_true,
      word_put32le (u32_lt v), toI32_u32 h, evalT, push_bind]
  | sym id =>
    intro h rest st
    have e : (byte 31).toNat = 31 := by decide
    simp only [Tree.serialize, put8, put32le, List.cons_append, List.nil_append, run, e, if_true,
      word_put32le h, evalT]
    rw [if_neg (by decide)]
    cases env.symbol id <;> simp [push_bind]
  | bank id =>
    intro h rest st
    have e : (byte 33).toNat = 33 := by decide
    simp only [Tree.serialize, put8, put32le, List.cons_append, List.nil_append, run, e, if_true,
      word_put32le h, evalT]
    rw [if_neg (by decide), if_neg (by decide)]
    cases env.bank id with
    | fail => simp
    | ub => simp
    | ok o => cases o with
      | none => simp [cont]
      | some v => simp [push_bind]
  | pcRel l r ihl ihr =>
    intro h rest st
    simp only [Tree.serialize, List.append_assoc, evalT]
    rw [ihl h.1]
    cases evalT fm env st.length l with
    | fail => simp
    | ub => simp
    | ok o => cases o with
      | none => simp [cont]
      | some a =>
        simp only [Outcome.ok_bind, cont]
        rw [ihr h.2]
        simp only [List.length_cons]
        cases evalT fm env (st.length + 1) r with
        | fail => simp
        | ub => simp
        | ok o => cases o with
          | none => simp [cont]
          | some b =>
            simp only [Outcome.ok_bind, cont]
            rw [run_op fm env 32 .pcRel (by decide) rfl (by decide) (by decide) (by decide)]
            simp only [step]
            cases combinePcRel env a b <;> simp [push_bind]
  | group l r ihl ihr =>
    intro h rest st
    simp only [Tree.serialize, List.append_assoc, evalT]
    rw [ihl h.1]
    cases evalT fm env st.length l with
    | fail => simp
    | ub => simp
    | ok o => cases o with
      | none => simp [cont]
      | some a =>
        simp only [Outcome.ok_bind, cont]
        rw [ihr h.2]
        simp only [List.length_cons]
        cases evalT fm env (st.length + 1) r with
        | fail => simp
        | ub => simp
        | ok o => cases o with
          | none => simp [cont]
          | some b =>
            simp only [Outcome.ok_bind, cont]
            rw [run_op fm env 35 .group (by decide) rfl (by decide) (by decide) (by decide)]
            simp only [step]
            cases combineGroup env a b <;> simp [push_bind]
  | bin op l r ihl ihr =>
    intro h rest st
    simp only [Tree.serialize, List.append_assoc, evalT]
    rw [ihl h.1]
    cases evalT fm env st.length l with
    | fail => simp
    | ub => simp
    | ok o => cases o with
      | none => simp [cont]
      | some a =>
        simp only [Outcome.ok_bind, cont]
        rw [ihr h.2]
        simp only [List.length_cons]
        cases evalT fm env (st.length + 1) r with
        | fail => simp
        | ub => simp
        | ok o => cases o with
          | none => simp [cont]
          | some b =>
            simp only [Outcome.ok_bind, cont]
            rw [run_op fm env op.code (.bin op) (by cases op <;> decide) (by cases op <;> rfl)
              (by cases op <;> decide) (by cases op <;> decide) (by cases op <;> decide)]
            simp only [step]
            cases combine fm op a b <;> simp [push_bind]
  | un op e ih =>
    intro h rest st
    simp only [Tree.serialize, List.append_assoc, evalT]
    rw [ih h]
    cases evalT fm env st.length e with
    | fail => simp
    | ub => simp
    | ok o => cases o with
      | none => simp [cont]
      | some a =>
        simp only [Outcome.ok_bind, cont]
        rw [run_op fm env op.code (.un op) (by cases op <;> decide) (by cases op <;> rfl)
          (by cases op <;> decide) (by cases op <;> decide) (by cases op <;> decide)]
        simp only [step]
        cases combineUn fm op a <;> simp [push_bind]

theorem calculate_serialize (fm : FMath) (env : Env) {t : Tree} (h : t.Ok) :
    calculate fm env t.serialize = evalT fm env 0 t := by
  have := run_serialize fm env t h [] []
  rw [List.append_nil] at this
  rw [calculate, this]
  simp only [List.length_nil]
  cases evalT fm env 0 t with
  | fail => simp
  | ub => simp
  | ok o => cases o <;> simp [cont, run]

theorem inRange_some {v w : Int} : inRange v = some w ↔ v = w ∧ I32 w := by
  unfold inRange
  constructor
  · intro h
    by_cases hv : I32 v
    · rw [if_pos hv] at h; cases h; exact ⟨rfl, hv⟩
    · rw [if_neg hv] at h; simp at h
  · rintro ⟨rfl, h⟩; rw [if_pos h]

theorem value_range (fm : FMath) (ρ : Den) (t : Tree) {v : Int} (h : t.value fm ρ = some v) : I32 v := by
  cases t with
  | const v => exact (inRange_some.1 h).2
  | sym id =>
    obtain ⟨w, _, h⟩ := Option.bind_eq_some_iff.1 h
    exact (inRange_some.1 h).2
  | bank id =>
    obtain ⟨w, _, h⟩ := Option.bind_eq_some_iff.1 h
    exact (inRange_some.1 h).2
  | pcRel l r =>
    obtain ⟨w, _, h⟩ := Option.bind_eq_some_iff.1 h
    obtain ⟨w, _, h⟩ := Option.bind_eq_some_iff.1 h
    obtain ⟨w, _, h⟩ := Option.bind_eq_some_iff.1 h
    cases h
    exact toI32_range _
  | group l r =>
    obtain ⟨w, _, h⟩ := Option.bind_eq_some_iff.1 h
    obtain ⟨w, _, h⟩ := Option.bind_eq_some_iff.1 h
    obtain ⟨w, _, h⟩ := Option.bind_eq_some_iff.1 h
    exact (inRange_some.1 h).2
  | bin op l r =>
    obtain ⟨w, _, h⟩ := Option.bind_eq_some_iff.1 h
    obtain ⟨w, _, h⟩ := Option.bind_eq_some_iff.1 h
    obtain ⟨w, _, h⟩ := Option.bind_eq_some_iff.1 h
    exact (inRange_some.1 h).2
  | un op e =>
    obtain ⟨w, _, h⟩ := Option.bind_eq_some_iff.1 h
    cases h
    exact meaningUn_range _ _ _

theorem pushE_ok {d : Nat} {e e' : Entry} : pushE d e = .ok (some e') ↔ d < 256 ∧ e = e' := by
  unfold pushE
  by_cases h : d ≥ 256
  · rw [if_pos h]; simp; omega
  · rw [if_neg h]; simp; omega

end Expr
end Verif
