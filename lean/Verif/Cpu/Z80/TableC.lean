import Verif.Cpu.Z80.Checked
/-!
# The table: `LD`
-/
namespace Verif.Cpu.Z80

set_option maxRecDepth 100000 in
theorem checks_ld : (listsOf .ld).all (checks F0 .ld) = true := by
  decide +kernel

/-- What can be known about the addresses. -/
def highs : List Facts := [⟨none, true, false, false⟩, ⟨none, false, true, false⟩, ⟨none, true, true, false⟩]

set_option maxRecDepth 100000 in
theorem checks_high : highs.all (fun F => ((lists1 ++ listsOf .ld).filter (·.any Opv.isInd)).all (checks F .ld)) = true := by
  decide +kernel

end Verif.Cpu.Z80
