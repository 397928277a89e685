import Verif.Cpu.Z80.Checked
/-!
# The table: other mnemonics with two operands
-/
namespace Verif.Cpu.Z80

set_option maxRecDepth 100000 in
theorem checks_two : [Mn.bit, .call, .in, .jp, .ldd, .ldi, .ldh, .ldhl, .out, .res, .set].all
    (fun m => (listsOf m).all (checks F0 m)) = true := by
  decide +kernel

set_option maxRecDepth 100000 in
theorem checks_out : (lists1 ++ listsOf .out).all (checks ⟨none, false, false, true⟩ .out) = true := by
  decide +kernel

set_option maxRecDepth 100000 in
theorem checks_all : [Mn.add, .ex, .jr].all (fun m => (listsOf m).all (checks F0 m)) = true := by
  decide +kernel

end Verif.Cpu.Z80
