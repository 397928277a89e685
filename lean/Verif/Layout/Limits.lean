import Verif.Layout.Props
/-!
# Where layout files do not mean what the documentation says

Lines from doc/LinkerMemoryLayoutFile.md, and lines like them, that are refused or understood differently.
-/
namespace Verif.Layout
open Verif.Assign (Pool MGroup)

/-- What a file says about pools. -/
def poolsOf (lines : List String) : Outcome (List Pool) :=
  (read (lines.map (·.toList) ++ ["FORMATS BIN".toList])).bind fun l => .ok l.pools

/-- The bank number -1 of the documentation's example is subtracted from the address, so that the size is taken for the
bank, the offset for the size, and the pool is not in the image. -/
theorem C25_negative_bank : poolsOf ["POOL ROM $000000 -1 $400000 0"] = .ok [⟨none, 0xFFFFFFFF, 0xFFFFFFFF, 0x400000, 0, []⟩] := by
  decide +kernel

/-- In parentheses it is the bank number. -/
example : poolsOf ["POOL ROM $000000 (-1) $400000 0"] = .ok [⟨some 0, 0xFFFFFFFF, 0, -1, 0x400000, []⟩] := by decide +kernel

/-- Without an offset such a line is refused. -/
theorem C25_negative_bank_refused : poolsOf ["POOL RAM $FF0000 -1 $10000"] = .fail := by decide +kernel

/-- So the documentation's example of a complete file, for the Game Boy, is refused. -/
theorem C25_documented_file : read (["POOL HOME $0000 0 $4000 0", "POOLS BANKS[1:31] $4000 @ $4000 @*$4000",
    "POOL VRAM $8000 -1 $2000", "POOL RAM $C000 -1 $2000", "POOL HRAM $FF80 -1 $80", "GROUP HOME HOME", "GROUP CODE HOME BANKS",
    "GROUP DATA HOME BANKS", "GROUP VRAM VRAM", "GROUP BSS RAM", "GROUP HRAM HRAM", "FORMATS BIN GAME_BOY"].map (·.toList)) =
    .fail := by decide +kernel

/-- The documentation's example of `POOLS` has one expression too many and is refused. -/
theorem C25_documented_pools : poolsOf ["POOLS banks[1:4] ($1000+@*$100) @ $100 $100 (@-1)*$100"] = .fail := by decide +kernel

/-- Binary numbers are refused, although `%` is a separator. -/
theorem C25_binary_refused : poolsOf ["POOL x %1100 0 1 0"] = .fail := by decide +kernel

/-- A missing operand or parenthesis is not noticed if that leaves enough expressions on the line. -/
theorem C25_missing_operand : poolsOf ["POOL x 1+ 2 3 4* 5"] = .ok [⟨none, 0xFFFFFFFF, 3, 3, 20, []⟩] ∧
    poolsOf ["POOL x 1 2 3 (5"] = .ok [⟨none, 0xFFFFFFFF, 1, 2, 3, []⟩] := by decide +kernel

/-- Division is that of signed numbers. -/
theorem C25_signed_division : poolsOf ["POOL x $80000000/2 0 1 0"] = .ok [⟨some 0, 0xFFFFFFFF, 0xC0000000, 0, 1, []⟩] := by
  decide +kernel

/-- Outside of `POOLS`, `@` is the number after the last one of the previous `POOLS`. -/
theorem C25_stale_index : poolsOf ["POOL x @ 0 1 0"] = .ok [⟨some 0, 0xFFFFFFFF, 0, 0, 1, []⟩] ∧
    (poolsOf ["POOLS y[3:5] 0 @ 1 0", "POOL x @ 0 1 0"]).bind (fun ps => .ok (ps.map (·.base))) = .ok [0, 0, 0, 6] := by
  decide +kernel

/-- The pools of `POOLS` are counted with 32 bits: a range up to the largest number has no end. The loop writes past the
end of the table. -/
theorem C25_largest_range : poolsOf ["POOLS y[$FFFFFFFF:$FFFFFFFF] 0 0 1 0"] = .ub := by decide +kernel

/-- What a file says about symbols. -/
def symbolsOf (lines : List String) : Outcome (List (List Char × Bytes)) :=
  (read (["POOL RAM 0 0 1 0".toList, "GROUP BSS RAM".toList] ++ lines.map (·.toList) ++ ["FORMATS BIN".toList])).bind
    fun l => .ok l.symbols

/-- A group's property cannot be followed by an operator. -/
theorem C25_property_plus : symbolsOf ["SYMBOL x BSS.start+5"] = .fail := by decide +kernel

/-- As the right operand it is accepted, but the addition is left out. Such a symbol has no value. -/
theorem C25_plus_property : symbolsOf ["SYMBOL x 5+BSS.start"] = .ok [(['x'], [30, 5, 0, 0, 0, 30, 0, 0, 0, 0, 30, 0, 0, 0, 0, 35])] ∧
    ∀ (fm : Expr.FMath) (env : Expr.Env), env.groupProperty 0 0 = .ok 100 →
      Expr.calculate fm env [30, 5, 0, 0, 0, 30, 0, 0, 0, 0, 30, 0, 0, 0, 0, 35] = .ok none := by
  refine ⟨by decide +kernel, fun fm env h => ?_⟩
  simp [Expr.calculate, Expr.run, Expr.push, Expr.stackOp, Expr.step, Expr.combineGroup, Expr.word, Expr.toI32, h]

/-- A symbol can be given no expression at all. -/
theorem C25_empty_symbol : symbolsOf ["SYMBOL x"] = .ok [(['x'], [])] := by decide +kernel

/-- What a file says about formats. -/
def formatsOf (line : String) : Outcome (List Config.Format) := (read [line.toList]).bind fun l => .ok l.formats

/-- The word after a header address is skipped. -/
theorem C25_skipped_format : formatsOf "FORMATS CBM_PRG[$0801] BIN" = .ok [.cbmPrg] ∧
    formatsOf "FORMATS CBM_PRG[$0801] nonsense" = .ok [.cbmPrg] := by decide +kernel

end Verif.Layout
