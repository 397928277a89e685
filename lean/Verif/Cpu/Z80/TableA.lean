import Verif.Cpu.Z80.Checked
/-!
# The table: mnemonics with at most one operand, and arithmetic
-/
namespace Verif.Cpu.Z80

set_option maxRecDepth 100000 in
theorem checks_short : (Mn.all.filter fun m => m ≠ .rst ∧ m ≠ .im).all (fun m => lists1.all (checks F0 m)) = true := by
  decide +kernel

set_option maxRecDepth 100000 in
theorem checks_alu : [Mn.adc, .sub, .sbc, .and, .xor, .or, .cp].all (fun m => (listsOf m).all (checks F0 m)) = true := by
  decide +kernel

end Verif.Cpu.Z80
