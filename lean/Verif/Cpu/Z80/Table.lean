import Verif.Cpu.Z80.Spec
/-!
# What the handlers do for every instruction and all forms of operands
-/
namespace Verif.Cpu.Z80

/-- The mode that is read for an operand. -/
def Opv.am : Opv → Am
  | .reg x => x.am
  | .idx .ix none => {mode := M.ixInd}
  | .idx .iy none => {mode := M.iyInd}
  | .idx .ix (some e) => {mode := M.ixDisp, e := some e, d := some 6}
  | .idx .iy (some e) => {mode := M.iyDisp, e := some e, d := some 6}
  | .imm e => {mode := M.imm, e := some e}
  | .ind e => {mode := M.immInd, e := some e}
  | .spDisp e => {mode := M.spDisp, e := some e}

/-- The halves of the index registers are only read with the option. -/
def Opv.usable (o : Opts) (x : Opv) : Bool := !has x.am.mode M.half || o.cpu = .z80 && o.undoc

/-- What `z80_ParseInstruction` does with the operands. -/
def plan (o : Opts) (F : Facts) (m : Mn) (xs : List Opv) : Calls :=
  if xs.all (·.usable o) then
    match xs with
    | [] => dispatch o F m.entry {} {}
    | [x] =>
      if m.entry.modes1 = 0 then .fail
      else if m.entry.modes2 != 0 && has m.entry.modes1 M.a && has m.entry.modes2 x.am.mode then
        dispatch o F m.entry implicitA x.am
      else dispatch o F m.entry x.am {}
    | [x, y] => if m.entry.modes1 = 0 then .fail else dispatch o F m.entry x.am y.am
    | _ => .fail
  else .fail

def Opv.signed : Opv → Option E
  | .idx _ e => e
  | .spDisp e => some e
  | _ => none

/-- The expressions that are checked already: displacements. -/
def signedOf (xs : List Opv) : E → Bool
  | .next e => signedOf xs e
  | .one => true
  | .zero => false
  | e => xs.any fun x => x.signed = some e

def Opv.name : Opv → Option E
  | .reg _ => none
  | .idx _ e => e
  | .imm e | .ind e | .spDisp e => some e

/-- The expressions that there are. -/
def namedOf (xs : List Opv) : E → Bool
  | .next e => namedOf xs e
  | .one | .zero => true
  | e => xs.any fun x => x.name = some e

/-- A call puts out what belongs into a place. -/
def fits (xs : List Opv) : Call → Slot E → Bool
  | .const n, .byte k => n == k && Nat.blt n 256
  | .const n, .s8 .zero => n == 0
  | .plain e, .s8 e' => e == e' && namedOf xs e && signedOf xs e
  | .s8 e, .s8 e' => e == e' && namedOf xs e
  | .su8 e, .n8 e' => e == e' && namedOf xs e
  | .u8 e, .p8 e' => e == e' && namedOf xs e
  | .su16 e, .n16 e' => e == e' && namedOf xs e
  | .u16 e, .a16 e' => e == e' && namedOf xs e
  | .rel e, .rel e' => e == e' && namedOf xs e
  | .hi e, .hi e' => e == e' && namedOf xs e
  | .bit n e, .bit k e' => n == k && Nat.blt n 256 && n &&& 0x38 == 0 && e == e' && namedOf xs e
  | _, _ => false

def fitsAll (xs : List Opv) : List Call → List (Slot E) → Bool
  | [], [] => true
  | c :: cs, s :: ss => fits xs c s && fitsAll xs cs ss
  | _, _ => false

/-- The handlers do what the line means. -/
def good (o : Opts) (F : Facts) (m : Mn) (xs : List Opv) : Bool :=
  match sem o.cpu F m xs with
  | some is =>
    if legal o is then
      match plan o F m xs with
      | .ok cs => Nat.ble cs.length 16 && fitsAll xs cs (is.flatMap (·.slots o.cpu))
      | _ => false
    else plan o F m xs = .fail
  | none => plan o F m xs = .fail

def Rg.isHalf : Rg → Bool
  | .ixh | .ixl | .iyh | .iyl => true
  | _ => false

/-- Places that cannot be used together with half an index register. -/
def Rg.noHalf : Rg → Bool
  | .h | .l | .hlInd => true
  | _ => false

def Mn.shifts : Mn → Bool
  | .rl | .rlc | .rr | .rrc | .sla | .sll | .sra | .srl => true
  | _ => false

/-- Where the handlers do not do what the line means. -/
def odd (o : Opts) : Mn → List Opv → Bool
  | .add, [.reg .sp, .imm _] => o.cpu = .gb
  | .inc, [.idx _ _] => o.cpu = .gb
  | .dec, [.idx _ _] => o.cpu = .gb
  | .dec, [.reg x] => x.isHalf
  | .ld, [.reg x, .reg y] => x.isHalf && y.noHalf || x.noHalf && y.isHalf
  | .ld, [.reg .hlInd, .idx _ _] | .ld, [.idx _ _, .reg .hlInd] => true
  | .out, [.reg .bcInd, .imm _] => true
  | m, [.idx _ d] => m.shifts && (o.cpu = .gb || d = none)
  | m, [.reg .sp] => m.shifts
  | _, _ => false

def shapes (e : E) : List Opv :=
  Rg.all.map .reg ++ [.idx .ix none, .idx .iy none, .idx .ix (some e), .idx .iy (some e), .imm e, .ind e, .spDisp e]

def lists : List (List Opv) := [] :: (shapes .a).map (fun x => [x]) ++ (shapes .a).flatMap fun x => (shapes .b).map fun y => [x, y]

def opts : List Opts := [.gb, .z80].flatMap fun c => [false, true].flatMap fun s => [false, true].map fun u => ⟨c, s, u⟩

end Verif.Cpu.Z80
