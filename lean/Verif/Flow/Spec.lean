import Verif.Flow.Model
/-!
# The meaning of structured programs

A program is a sequence of statements in which conditions, repetitions and macros are nested. Its meaning is defined by
recursion on this structure, without a stack of contexts and without skipping text.
-/
namespace Verif.Flow

/-- A structured program: every constructor but the first is a statement followed by the rest of the program. -/
inductive Prog (α : Type) where
  | nil
  | blank (k : Prog α)
  | exec (a : α) (k : Prog α)
  | ifThen (t : Test) (a : α) (yes : Prog α) (k : Prog α)
  | ifElse (t : Test) (a : α) (yes no : Prog α) (k : Prog α)
  | rept (a : α) (body : Prog α) (k : Prog α)
  | rexit (k : Prog α)
  | define (name : List Char) (body : Prog α) (k : Prog α)
  | mexit (k : Prog α)
  | call (name : List Char) (a : α) (k : Prog α)
  | shift (a : α) (k : Prog α)
  | incl (name : List Char) (k : Prog α)

/-- How a program is written. -/
def Prog.lines {α : Type} : Prog α → List (Item α)
  | nil => []
  | blank k => .blank :: k.lines
  | exec a k => .exec a :: k.lines
  | ifThen t a yes k => .cond t a :: (yes.lines ++ .endc :: k.lines)
  | ifElse t a yes no k => .cond t a :: (yes.lines ++ .else :: (no.lines ++ .endc :: k.lines))
  | rept a body k => .rept a :: (body.lines ++ .endr :: k.lines)
  | rexit k => .rexit :: k.lines
  | define name body k => .define name :: (body.lines ++ .endm :: k.lines)
  | mexit k => .mexit :: k.lines
  | call name a k => .call name a :: k.lines
  | shift a k => .shift a :: k.lines
  | incl name k => .incl name :: k.lines

/-- When a condition on a number holds (doc/ControlStructures.md, IF commands). -/
def Test.number : Test → Option (Int → Prop)
  | .if => some (· ≠ 0)
  | .ifeq => some (· = 0)
  | .ifgt => some (0 < ·)
  | .ifge => some (0 ≤ ·)
  | .iflt => some (· < 0)
  | .ifle => some (· ≤ 0)
  | _ => none

/-- Whether a condition holds, and the state after evaluating its operands. -/
inductive Decides {α σ : Type} (sem : Sem α σ) (v : View) (a : α) (s : σ) : Test → Prop → σ → Prop
  | number {t : Test} {p : Int → Prop} {n : Int} {s' : σ} : t.number = some p → sem.value v a s = .ok (n, s') → Decides sem v a s t (p n) s'
  | same {x y : List Char} {s' : σ} : sem.strings v a s = .ok ((x, y), s') → Decides sem v a s .ifc (x = y) s'
  | different {x y : List Char} {s' : σ} : sem.strings v a s = .ok ((x, y), s') → Decides sem v a s .ifnc (x ≠ y) s'
  | defined {d : Bool} {s' : σ} : sem.defined v a s = .ok (d, s') → Decides sem v a s .ifd (d = true) s'
  | undefined {d : Bool} {s' : σ} : sem.defined v a s = .ok (d, s') → Decides sem v a s .ifnd (d = false) s'

/-- Where a program stands: in a file, in a macro, or in a repetition that stands in one of these. -/
inductive Place where
  | file
  | «macro»
  | rept (inMacro : Bool)
  deriving DecidableEq

/-- A repetition at this place is in a macro, or not. -/
def Place.inMacro : Place → Bool
  | .file => false
  | .macro => true
  | .rept b => b

/-- What a program can change. -/
structure Env (α σ : Type) where
  args : Args
  macros : List Char → Option (Prog α)
  next : Nat
  s : σ

/-- How a program ends. -/
inductive Exit where
  | normal
  | rexit
  | mexit
  deriving DecidableEq

/-- A program, or a number of repetitions of a program. -/
inductive Job (α : Type) where
  | prog (place : Place) (unique : Nat) (p : Prog α)
  | loop (inMacro : Bool) (body : Prog α) (n : Nat)

/-- Removes the first `n` arguments of a macro; `\0` stays. -/
def shifted (n : Int) (args : Args) : Args := args.take 1 ++ args.drop (1 + n.toNat)

/-- The meaning of programs. Every context and every repetition has its own unique value. -/
inductive Runs {α σ : Type} (sem : Sem α σ) (files : List Char → Option (Prog α)) : Job α → Env α σ → Exit → Env α σ → Prop
  | nil {pl : Place} {u : Nat} {e : Env α σ} : Runs sem files (.prog pl u .nil) e .normal e
  | blank {pl : Place} {u : Nat} {k : Prog α} {e e' : Env α σ} {x : Exit} :
      Runs sem files (.prog pl u k) e x e' → Runs sem files (.prog pl u (.blank k)) e x e'
  | exec {pl : Place} {u : Nat} {a : α} {k : Prog α} {e e' : Env α σ} {s' : σ} {x : Exit} : sem.exec ⟨e.args, u⟩ a e.s = .ok s' →
      Runs sem files (.prog pl u k) { e with s := s' } x e' → Runs sem files (.prog pl u (.exec a k)) e x e'
  /-- The condition holds. -/
  | thenYes {pl : Place} {u : Nat} {t : Test} {a : α} {yes k : Prog α} {e e1 e' : Env α σ} {c : Prop} {s' : σ} {x : Exit} :
      Decides sem ⟨e.args, u⟩ a e.s t c s' → c → Runs sem files (.prog pl u yes) { e with s := s' } .normal e1 →
      Runs sem files (.prog pl u k) e1 x e' → Runs sem files (.prog pl u (.ifThen t a yes k)) e x e'
  | thenExit {pl : Place} {u : Nat} {t : Test} {a : α} {yes k : Prog α} {e e' : Env α σ} {c : Prop} {s' : σ} {x : Exit} :
      Decides sem ⟨e.args, u⟩ a e.s t c s' → c → x ≠ .normal → Runs sem files (.prog pl u yes) { e with s := s' } x e' →
      Runs sem files (.prog pl u (.ifThen t a yes k)) e x e'
  /-- The condition does not hold. -/
  | thenNo {pl : Place} {u : Nat} {t : Test} {a : α} {yes k : Prog α} {e e' : Env α σ} {c : Prop} {s' : σ} {x : Exit} :
      Decides sem ⟨e.args, u⟩ a e.s t c s' → ¬ c → Runs sem files (.prog pl u k) { e with s := s' } x e' →
      Runs sem files (.prog pl u (.ifThen t a yes k)) e x e'
  | elseYes {pl : Place} {u : Nat} {t : Test} {a : α} {yes no k : Prog α} {e e1 e' : Env α σ} {c : Prop} {s' : σ} {x : Exit} :
      Decides sem ⟨e.args, u⟩ a e.s t c s' → c → Runs sem files (.prog pl u yes) { e with s := s' } .normal e1 →
      Runs sem files (.prog pl u k) e1 x e' → Runs sem files (.prog pl u (.ifElse t a yes no k)) e x e'
  | elseYesExit {pl : Place} {u : Nat} {t : Test} {a : α} {yes no k : Prog α} {e e' : Env α σ} {c : Prop} {s' : σ} {x : Exit} :
      Decides sem ⟨e.args, u⟩ a e.s t c s' → c → x ≠ .normal → Runs sem files (.prog pl u yes) { e with s := s' } x e' →
      Runs sem files (.prog pl u (.ifElse t a yes no k)) e x e'
  | elseNo {pl : Place} {u : Nat} {t : Test} {a : α} {yes no k : Prog α} {e e1 e' : Env α σ} {c : Prop} {s' : σ} {x : Exit} :
      Decides sem ⟨e.args, u⟩ a e.s t c s' → ¬ c → Runs sem files (.prog pl u no) { e with s := s' } .normal e1 →
      Runs sem files (.prog pl u k) e1 x e' → Runs sem files (.prog pl u (.ifElse t a yes no k)) e x e'
  | elseNoExit {pl : Place} {u : Nat} {t : Test} {a : α} {yes no k : Prog α} {e e' : Env α σ} {c : Prop} {s' : σ} {x : Exit} :
      Decides sem ⟨e.args, u⟩ a e.s t c s' → ¬ c → x ≠ .normal → Runs sem files (.prog pl u no) { e with s := s' } x e' →
      Runs sem files (.prog pl u (.ifElse t a yes no k)) e x e'
  /-- `REPT` repeats its body. -/
  | rept {pl : Place} {u : Nat} {a : α} {body k : Prog α} {e e1 e' : Env α σ} {n : Nat} {s' : σ} {x : Exit} :
      sem.value ⟨e.args, u⟩ a e.s = .ok ((n : Int), s') → n < 2 ^ 31 → Runs sem files (.loop pl.inMacro body n) { e with s := s' } .normal e1 →
      Runs sem files (.prog pl u k) e1 x e' → Runs sem files (.prog pl u (.rept a body k)) e x e'
  | loopEnd {m : Bool} {body : Prog α} {e : Env α σ} : Runs sem files (.loop m body 0) e .normal e
  | loopNext {m : Bool} {body : Prog α} {n : Nat} {e e1 e' : Env α σ} :
      Runs sem files (.prog (.rept m) e.next body) { e with next := (e.next + 1) % 2 ^ 32 } .normal e1 → Runs sem files (.loop m body n) e1 .normal e' →
      Runs sem files (.loop m body (n + 1)) e .normal e'
  /-- `REXIT` ends the repetition. -/
  | loopExit {m : Bool} {body : Prog α} {n : Nat} {e e' : Env α σ} :
      Runs sem files (.prog (.rept m) e.next body) { e with next := (e.next + 1) % 2 ^ 32 } .rexit e' →
      Runs sem files (.loop m body (n + 1)) e .normal e'
  | rexit {m : Bool} {u : Nat} {k : Prog α} {e : Env α σ} : Runs sem files (.prog (.rept m) u (.rexit k)) e .rexit e
  /-- Outside of a repetition `REXIT` does nothing. -/
  | rexitOutside {pl : Place} {u : Nat} {k : Prog α} {e e' : Env α σ} {x : Exit} : (∀ m, pl ≠ .rept m) →
      Runs sem files (.prog pl u k) e x e' → Runs sem files (.prog pl u (.rexit k)) e x e'
  | define {pl : Place} {u : Nat} {name : List Char} {body k : Prog α} {e e' : Env α σ} {x : Exit} : e.macros name = none →
      Runs sem files (.prog pl u k) { e with macros := fun n => if n = name then some body else e.macros n } x e' →
      Runs sem files (.prog pl u (.define name body k)) e x e'
  | mexit {u : Nat} {k : Prog α} {e : Env α σ} : Runs sem files (.prog .macro u (.mexit k)) e .mexit e
  /-- A macro has arguments of its own; `MEXIT` ends it. -/
  | call {pl : Place} {u : Nat} {name : List Char} {a : α} {body k : Prog α} {e e1 e' : Env α σ} {args : Args} {s' : σ} {x y : Exit} :
      e.macros name = some body → sem.args ⟨e.args, u⟩ a e.s = .ok (args, s') → y = .normal ∨ y = .mexit →
      Runs sem files (.prog .macro e.next body) { e with args := args, next := (e.next + 1) % 2 ^ 32, s := s' } y e1 →
      Runs sem files (.prog pl u k) { e1 with args := e.args } x e' → Runs sem files (.prog pl u (.call name a k)) e x e'
  | shift {pl : Place} {u : Nat} {a : α} {k : Prog α} {e e' : Env α σ} {n : Int} {s' : σ} {x : Exit} : sem.value ⟨e.args, u⟩ a e.s = .ok (n, s') →
      pl.inMacro = true → Runs sem files (.prog pl u k) { e with args := shifted n e.args, s := s' } x e' →
      Runs sem files (.prog pl u (.shift a k)) e x e'
  | incl {pl : Place} {u : Nat} {name : List Char} {p k : Prog α} {e e1 e' : Env α σ} {x : Exit} : files name = some p →
      Runs sem files (.prog .file e.next p) { e with args := [], next := (e.next + 1) % 2 ^ 32 } .normal e1 →
      Runs sem files (.prog pl u k) { e1 with args := e.args } x e' → Runs sem files (.prog pl u (.incl name k)) e x e'

end Verif.Flow
