import Verif.Program.Model
/-!
# The types of symbols in the two models

The statements of C61 name symbols by numbers and look at their types only; in the symbol table of C27 and C28 a symbol has
flags. Both accept the same definitions.
-/
namespace Verif.Program
open Verif.Symbol (Symbol canDefine canBeType defaultFlags)

/-- The same enumeration (xasm/motor/symbol.h 32-44). -/
def asType : Symbol.SymType → Expr.SymType
  | .label => .label
  | .equ => .equ
  | .set => .set
  | .equs => .equs
  | .macro => .macro
  | .import => .imported
  | .group => .group
  | .global => .global
  | .structure => .structure
  | .undefined => .undefined

variable {x : Symbol} (h : x.flags.modifiable = (defaultFlags x.type).modifiable)
include h

theorem canDefine_label : canDefine x .label = definable (asType x.type) := by
  unfold canDefine canBeType
  rw [h]
  cases x.type <;> rfl

theorem canDefine_equ : canDefine x .equ = definable (asType x.type) := by
  unfold canDefine canBeType
  rw [h]
  cases x.type <;> rfl

theorem canBeType_set : (x.flags.modifiable && canBeType x .set) = assignable (asType x.type) := by
  unfold canBeType
  rw [h]
  cases x.type <;> rfl

end Verif.Program
