import Verif.Expr.Ops
/-!
# String members, random numbers and formatted values

What the assembler computes when it interprets a source text: `s.slice(start,count)`, `RAND(lower,upper)` and the
values embedded in strings, `{value:X4}`. A C string is a `List Char` in which every character stands for one byte.
Lengths are those of real strings, below `2^31`.
-/
namespace Verif.Text
open Verif.Expr

/-! ### Slices -/

/-- The start of a slice: a negative position counts from the end, and both ends of the string limit it
(xasm/motor/parse_string.c 317-325). -/
def sliceStart (len start : Int) : Int :=
  if start < 0 then (if len + start < 0 then 0 else len + start)
  else if start > len then len
  else start

/-- `s.slice(start,count)`; `none` is a count that is left out (xasm/motor/parse_string.c 311-353). `start + count`
on line 336 is a signed addition. `str_Slice` comes from the empty submodule `util` and is taken to return `count`
characters from `start`. Parsing of the arguments is left out. -/
def slice (t : List Char) (start : Int) (count : Option Int) : Outcome (List Char) :=
  let len : Int := t.length
  let start := sliceStart len start
  let count := count.getD (len - start)
  (chk (start + count)).bind fun last =>
    let count := if last ≥ len then len - start else count
    if start ≥ len ∨ count ≤ 0 then .ok []
    else .ok ((t.drop start.toNat).take count.toNat)

/-! ### Random numbers -/

/-- One step of the generator, on a `uint32_t` (xasm/motor/parse_expression.c 376-378). -/
def step (seed : BitVec 32) : BitVec 32 :=
  let seed := seed ^^^ (seed <<< 13)
  let seed := seed ^^^ (seed >>> 17)
  seed ^^^ (seed <<< 5)

/-- `RAND(lower,upper)`: the value and the new seed (xasm/motor/parse_expression.c 366-386). `1 + upper_bound -
lower_bound` on line 380 is computed in `int32_t`, converted to `uint32_t`, and is a divisor. The sum is a `uint32_t`
that is converted to `int32_t`. -/
def rand (seed : BitVec 32) (lower upper : Int) : Outcome (Int × BitVec 32) :=
  let seed := step seed
  (chk (1 + upper)).bind fun upper1 =>
    (chk (upper1 - lower)).bind fun range =>
      if u32 range = 0 then .ub
      else .ok (toI32 ((seed.toNat % u32 range : Nat) + lower), seed)

/-- The seed when the assembler starts (xasm/motor/symbol.c 59). -/
def initialSeed : BitVec 32 := 0x1337C0DE

/-- `RANDSEED value` (xasm/motor/parse_directive.c 752-757). -/
def randSeed (value : Int) : BitVec 32 := BitVec.ofInt 32 value

/-! ### Formatted values -/

/-- The digit `d` of a numeral, as `printf` writes it. -/
def digitChar (d : Nat) : Char := if d < 10 then Char.ofNat (48 + d) else Char.ofNat (55 + d)

/-- The digits of `n`, as `printf` writes them without a width. The first argument is an upper bound for the number of
further digits. -/
def digits (base : Nat) : Nat → Nat → List Char
  | 0, n => [digitChar (n % base)]
  | k + 1, n => if n < base then [digitChar n] else digits base k (n / base) ++ [digitChar (n % base)]

/-- Padding with zeros on the left, `%0*d` and `%0*X` for numbers that are not negative. -/
def pad (width : Nat) (ds : List Char) : List Char := List.replicate (width - ds.length) '0' ++ ds

/-- `%0*d`; no `int` has more than ten digits. -/
def decimal (width n : Nat) : List Char := pad width (digits 10 10 n)

/-- `%d` of a number that may be negative. -/
def signed (v : Int) : List Char := if v < 0 then '-' :: decimal 0 v.natAbs else decimal 0 v.natAbs

/-- The five decimals of the fraction of a 16.16 number: `imuldiv(value & 0xFFFF, 100000, 65536)` written with `%05d`
(xasm/motor/parse_string.c 102-104, xasm/motor/parse_directive.c 292). `imuldiv` comes from the empty submodule `util`
and is taken to multiply without overflow and divide, rounding down. -/
def fraction (v : Int) : List Char := decimal 5 (u32 v % 65536 * 100000 / 65536)

/-- `formatValue` (xasm/motor/parse_string.c 86-128). In format `D` the number is negated, which overflows for
`INT32_MIN`. In format `F` a terminator is stored in `char fraction[8]` at index `precision`. In format `X` the last
`precision` characters are moved with `memcpy(formatted, formatted + 8 - precision, precision + 1)`; for a precision
above 8 this reads before the array, and for 4 or more the two areas overlap, which C11 7.24.2.1 leaves undefined.
`lenient` says that the platform's `memcpy` copies overlapping areas like `memmove`. -/
def formatValue (lenient : Bool) (v : Int) (format : Char) (precision : Int) : Outcome (List Char) :=
  match format with
  | 'D' =>
    let width := if precision < 0 then 0 else precision.toNat
    if v < 0 then (chk (-v)).bind fun w => .ok ('-' :: decimal width w.toNat)
    else .ok (decimal width v.toNat)
  | 'F' =>
    let precision := if precision = 0 then 5 else precision
    if precision < 0 ∨ precision > 7 then .ub
    else .ok (signed (v >>> 16) ++ ['.'] ++ (fraction v).take precision.toNat)
  | 'X' =>
    let formatted := pad 8 (digits 16 8 (u32 v))
    if precision > 0 then
      if precision > 8 ∨ (precision ≥ 4 ∧ ¬ lenient) then .ub
      else .ok (formatted.drop (8 - precision.toNat))
    else .ok formatted
  | 'C' => .ok [Char.ofNat (u32 v % 256)]
  | _ => .ok []

/-- The format character of `{value:x}` is turned into upper case (xasm/motor/parse_string.c 61-84). -/
def upperFormat (c : Char) : Char := c.toUpper

/-- What `PRINTF` prints (xasm/motor/parse_directive.c 283-295). -/
def printFixed (v : Int) : Outcome (List Char) :=
  if v < 0 then (chk (-v)).bind fun w => .ok ('-' :: (decimal 0 (u32 w / 65536) ++ ['.'] ++ fraction w))
  else .ok (decimal 0 (u32 v / 65536) ++ ['.'] ++ fraction v)

/-- What `PRINTV` prints: `$%X` (xasm/motor/parse_directive.c 276-281). -/
def printValue (v : Int) : List Char := '$' :: digits 16 8 (u32 v)

end Verif.Text
