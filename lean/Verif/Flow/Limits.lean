import Verif.Flow.Main
/-!
# C49: an example, and programs without a meaning that are accepted
-/
namespace Verif.Flow

open Verif.Lexer (Dir)

/-! ### An example -/

/-- Operands: a number, or the number of arguments. -/
inductive Opr where
  | num (n : Int)
  | count
  | list (args : Args)
  deriving DecidableEq

/-- The value of an operand. -/
def Opr.value (v : View) : Opr → Int
  | .num n => n
  | .count => v.args.length
  | .list _ => 0

/-- Statements put a number and the unique value into a list. -/
def demo : Sem Opr (List (Int × Nat)) where
  exec := fun v a s => .ok (s ++ [(a.value v, v.unique)])
  value := fun v a s => .ok (a.value v, s)
  strings := fun _ _ s => .ok ((['a'], ['b']), s)
  defined := fun _ _ s => .ok (true, s)
  args := fun _ a s => match a with
    | .list args => .ok (args, s)
    | _ => .fail
  reserved := fun _ => true

/-- ```
m: MACRO
    REPT 2
     <count>
     SHIFT 1
    ENDR
    REPT 5
     IFEQ <count>-1
      REXIT
     ENDC
     <count>
    ENDR
    MEXIT
    <7>
   ENDM
   m a,b,c
   IFGT 0
    <8>
   ELSE
    REPT 0
     <9>
    ENDR
    <10>
   ENDC
``` -/
def demoProg : Prog Opr :=
  .define ['m'] (.rept (.num 2) (.exec .count (.shift (.num 1) .nil))
      (.rept (.num 5) (.ifThen .iflt (.num (-1)) (.rexit .nil) (.exec .count .nil)) (.mexit (.exec (.num 7) .nil))))
    (.call ['m'] (.list [none, some ['a'], some ['b'], some ['c']])
      (.ifElse .ifgt (.num 0) (.exec (.num 8) .nil) (.rept (.num 0) (.exec (.num 9) .nil) (.exec (.num 10) .nil)) .nil))

/-- The state before and after. -/
def demoEnv : Env Opr (List (Int × Nat)) := ⟨[], fun _ => none, 1, []⟩

example : ∃ e', Runs demo (fun _ => none) (.prog .file 0 demoProg) demoEnv .normal e' ∧
    e'.s = [(4, 2), (3, 3), (10, 0)] ∧ e'.next = 5 ∧ e'.args = [] := by
  refine ⟨_, .define rfl (.call rfl rfl (.inr rfl)
    (.rept (n := 2) rfl (by decide)
      (.loopNext (.exec rfl (.shift rfl rfl .nil)) (.loopNext (.exec rfl (.shift rfl rfl .nil)) .loopEnd))
      (.rept (n := 5) rfl (by decide) (.loopExit (.thenExit (.number rfl rfl) (by decide) (by decide) .rexit)) .mexit))
    (.elseNo (.number rfl rfl) (by decide) (.rept (n := 0) rfl (by decide) .loopEnd (.exec rfl .nil)) .nil)), ?_⟩
  decide +kernel

/-- What an assembly leaves: whether it ended, and the output. -/
def output (n : Nat) (items : List (Item Opr)) : Option (Bool × List (Int × Nat)) :=
  match run demo (fun _ => none) n ⟨[⟨.file, items, [], 0⟩], fun _ => none, 1, []⟩ with
  | .ok (b, st) => some (b, st.s)
  | _ => none

example : output 40 (demoProg.lines ++ [.blank]) = some (true, [(4, 2), (3, 3), (10, 0)]) := by decide +kernel

/-! ### Text without structure -/

section
variable {α σ : Type} {sem : Sem α σ} {fl : List Char → Option (List (Item α))}

/-- `MEXIT` and `ENDM` in a context that is no macro: the assembler does not end. The context may be a repetition in a
macro. -/
theorem C49_mexit_endless {f : Frame α} {fs : List (Frame α)} {macros : List Char → Option (List (Item α))} {next : Nat} {s : σ}
    {i : Item α} {r : List (Item α)} (hi : i = .mexit ∨ i = .endm) (hf : f.items = i :: r) (hk : f.kind ≠ .macro) (n : Nat) :
    run sem fl n ⟨f :: fs, macros, next, s⟩ = .ok (false, ⟨f :: fs, macros, next, s⟩) := by
  have hs : step sem fl ⟨f :: fs, macros, next, s⟩ = .ok (.more ⟨f :: fs, macros, next, s⟩) := by
    rw [step]
    rcases hi with rfl | rfl
    · simp only [hf]
    · simp only [hf]
  induction n with
  | zero => rfl
  | succ n ih => rw [run, hs, ok_bind]; exact ih

end

/-- A macro that is left from inside a repetition:
```
m: MACRO
    REPT 3
     <1>
     MEXIT
    ENDR
   ENDM
   m
``` -/
def mexitInRept : Prog Opr :=
  .define ['m'] (.rept (.num 3) (.exec (.num 1) (.mexit .nil)) .nil) (.call ['m'] (.list [none]) .nil)

/-- It has no end: after four steps nothing changes. -/
theorem C49_mexit_in_rept (n : Nat) :
    ∃ st, run demo (fun _ => none) (4 + n) (start mexitInRept 0 demoEnv) = .ok (false, st) ∧ st.s = [(1, 2)] := by
  have h : ∃ st, (∀ n, run demo (fun _ => none) (4 + n) (start mexitInRept 0 demoEnv) = run demo (fun _ => none) n st) ∧ st.s = [(1, 2)] ∧
      ∃ f fs r, st.frames = f :: fs ∧ f.items = .mexit :: r ∧ f.kind ≠ .macro := by
    refine ⟨_, fun n => by rw [Nat.add_comm]; rfl, rfl, _, _, _, rfl, rfl, by simp⟩
  obtain ⟨st, h1, h2, f, fs, r, h3, h4, h5⟩ := h
  refine ⟨st, ?_, h2⟩
  rw [h1]
  obtain ⟨frames, macros, next, s⟩ := st
  cases h3
  exact C49_mexit_endless (.inl rfl) h4 h5 n

/-- A condition on strings that is not ended: the rest of the file is skipped and the assembly ends without an error; a
condition on a number fails. -/
theorem C49_endc_missing : output 10 [.cond .ifc (.num 0), .exec (.num 1), .blank] = some (true, []) ∧
    output 10 [.cond .if (.num 0), .exec (.num 1), .blank] = none ∧
    output 10 [.cond .if (.num 1), .exec (.num 1), .else, .exec (.num 2), .blank] = some (true, [(1, 0)]) := by decide +kernel

/-- `ENDC` without a condition is accepted, and so is `ENDR` without a repetition. -/
theorem C49_stray_ends : output 10 [.exec (.num 1), .endc, .endr, .exec (.num 2)] = some (true, [(1, 0), (2, 0)]) := by decide +kernel

/-- If the file ends with `ENDR` and no line break, a repetition can be left at `ENDR` but not by `REXIT`. -/
theorem C49_rexit_last : output 20 [.rept (.num 2), .exec (.num 1), .endr] = some (true, [(1, 1), (1, 2)]) ∧
    output 20 [.rept (.num 2), .exec (.num 1), .rexit, .endr] = none ∧
    output 20 [.rept (.num 2), .exec (.num 1), .rexit, .endr, .blank] = some (true, [(1, 1)]) := by decide +kernel

end Verif.Flow
