import Verif.Cpu.Rc8.Model
import Verif.Cpu.X65.Spec
/-!
# Specification of the RC8

The processor has four 16-bit registers, each the top of a stack, whose halves are 8-bit registers. Its instructions are those of
the test `allcodes.rc8` (test/rc8/allcodes.rc8), which has one line for each opcode. What they do is written down here as far as
it is needed for telling whether a sequence of instructions does what one written instruction says; the rest, such as the way
flags are computed, is left open.

An instruction of the source, whether the processor has it or not, is a *form*; `act` tells what it does. `decode` tells which
forms the processor has.
-/
namespace Verif.Cpu.Rc8

open Verif.Parse (Tok Toks Tree)
open Verif.Expr (Src FMath ASym Den wrap)

abbrev Byte := BitVec 8
abbrev Word := BitVec 16

/-- The 8-bit registers, in the order of their numbers. -/
inductive R8 where
  | f | t | b | c | d | e | h | l
  deriving DecidableEq, Repr

/-- The 16-bit registers, in the order of their numbers. -/
inductive R16 where
  | ft | bc | de | hl
  deriving DecidableEq, Repr

def R16.hi : R16 → R8
  | .ft => .f | .bc => .b | .de => .d | .hl => .h

def R16.lo : R16 → R8
  | .ft => .t | .bc => .c | .de => .e | .hl => .l

/-- The 16-bit register of which a register is a half. -/
def R8.pair : R8 → R16
  | .f | .t => .ft
  | .b | .c => .bc
  | .d | .e => .de
  | .h | .l => .hl

/-- Whether it is the high half. -/
def R8.isHi : R8 → Bool
  | .f | .b | .d | .h => true
  | _ => false

def r8s : List R8 := [.f, .t, .b, .c, .d, .e, .h, .l]
def r16s : List R16 := [.ft, .bc, .de, .hl]

/-- The conditions. -/
inductive Cond where
  | le | gt | lt | ge | leu | gtu | ltu | geu | eq | ne
  deriving DecidableEq, Repr

def conds : List Cond := [.le, .gt, .lt, .ge, .leu, .gtu, .ltu, .geu, .eq, .ne]

def Cond.inv : Cond → Cond
  | .le => .gt | .gt => .le | .lt => .ge | .ge => .lt | .leu => .gtu | .gtu => .leu | .ltu => .geu | .geu => .ltu
  | .eq => .ne | .ne => .eq

/-- What a pointer does besides pointing. -/
inductive Move where
  | stay | inc | dec
  deriving DecidableEq, Repr

/-- The memories. -/
inductive Space where
  | data | code | io
  deriving DecidableEq, Repr

inductive Alu where
  | add | sub | and | or | xor
  deriving DecidableEq, Repr

inductive Sh where
  | ls | rs | rsa
  deriving DecidableEq, Repr

inductive StackOp where
  | push | pop | swap
  deriving DecidableEq, Repr

/-- Instructions. `V` is the type of values. -/
inductive Form (V : Type) where
  | nop | ei | di | ext | reti
  | ld8 (d s : R8)
  | ld16 (d s : R16)
  | ldn8 (d : R8) (v : V)
  | ldn16 (d : R16) (v : V)
  | load8 (sp : Space) (d : R8) (p : R16) (m : Move)
  | load16 (sp : Space) (d : R16) (p : R16) (m : Move)
  | store8 (sp : Space) (p : R16) (m : Move) (s : R8)
  | store16 (sp : Space) (p : R16) (m : Move) (s : R16)
  | lcrIn | lcrOut
  | alu8 (o : Alu) (s : R8)
  | alun8 (o : Alu) (d : R8) (v : V)
  | alu16 (o : Alu) (s : R16)
  | alun16 (o : Alu) (d : R16) (v : V)
  | cmp8 (s : R8)
  | cmpn8 (d : R8) (v : V)
  | cmp16 (s : R16)
  | tst (s : R16)
  | neg8 | neg16
  | not8 (d : R8) | not16
  | exg8 (a b : R8)
  | exg16 (a b : R16)
  | shift (o : Sh) (s : R8)
  | shiftn (o : Sh) (v : V)
  | stack (o : StackOp) (rs : List R16)
  | pick (r : R16)
  | pickn (r : R16) (v : V)
  | dj (r : R8) (v : V)
  | jc (c : Option Cond) (v : V)
  | jr (r : R16)
  | jal (r : R16)
  | jaln (v : V)
  | sys (v : V)
  deriving DecidableEq, Repr

/-- The value of a form. -/
def Form.val {V : Type} : Form V → Option V
  | .ldn8 _ v | .ldn16 _ v | .alun8 _ _ v | .alun16 _ _ v | .cmpn8 _ v | .shiftn _ v | .pickn _ v | .dj _ v | .jc _ v | .jaln v
  | .sys v => some v
  | _ => none

def Form.map {V W : Type} (g : V → W) : Form V → Form W
  | .nop => .nop | .ei => .ei | .di => .di | .ext => .ext | .reti => .reti
  | .ld8 d s => .ld8 d s | .ld16 d s => .ld16 d s | .ldn8 d v => .ldn8 d (g v) | .ldn16 d v => .ldn16 d (g v)
  | .load8 sp d p m => .load8 sp d p m | .load16 sp d p m => .load16 sp d p m
  | .store8 sp p m s => .store8 sp p m s | .store16 sp p m s => .store16 sp p m s
  | .lcrIn => .lcrIn | .lcrOut => .lcrOut
  | .alu8 o s => .alu8 o s | .alun8 o d v => .alun8 o d (g v) | .alu16 o s => .alu16 o s | .alun16 o d v => .alun16 o d (g v)
  | .cmp8 s => .cmp8 s | .cmpn8 d v => .cmpn8 d (g v) | .cmp16 s => .cmp16 s | .tst s => .tst s
  | .neg8 => .neg8 | .neg16 => .neg16 | .not8 d => .not8 d | .not16 => .not16
  | .exg8 a b => .exg8 a b | .exg16 a b => .exg16 a b
  | .shift o s => .shift o s | .shiftn o v => .shiftn o (g v) | .stack o rs => .stack o rs
  | .pick r => .pick r | .pickn r v => .pickn r (g v)
  | .dj r v => .dj r (g v) | .jc c v => .jc c (g v) | .jr r => .jr r | .jal r => .jal r | .jaln v => .jaln (g v) | .sys v => .sys (g v)

/-! ### The machine -/

/-- The registers, what is below them on their stacks, the memories, the control registers and whether interrupts are enabled. -/
structure State where
  reg : R8 → Byte
  deep : R16 → Nat → Word
  mem : Word → Byte
  io : Word → Byte
  ctl : Byte → Byte
  on : Bool

/-- What is left open, and the program. -/
structure Cpu where
  flags8 : Byte → Byte → Byte
  flags16 : Word → Word → Byte
  tst : Word → Byte
  holds : Cond → Byte → Bool
  inverse : ∀ c f, holds c.inv f = !holds c f
  pick : Byte → Word → (Nat → Word) → Word
  link : R16 → R16
  sys : Byte → Word → State → Word × State
  reti : State → Word × State
  code : Word → Byte

def pair (h l : Byte) : Word := BitVec.ofNat 16 (256 * h.toNat + l.toNat)
def hi (w : Word) : Byte := BitVec.ofNat 8 (w.toNat / 256)
def lo (w : Word) : Byte := BitVec.ofNat 8 w.toNat

def State.get (s : State) (r : R16) : Word := pair (s.reg r.hi) (s.reg r.lo)

def State.set8 (s : State) (r : R8) (v : Byte) : State := {s with reg := fun q => if q = r then v else s.reg q}

def State.set (s : State) (r : R16) (w : Word) : State := (s.set8 r.hi (hi w)).set8 r.lo (lo w)

def byteOf (v : Int) : Byte := BitVec.ofInt 8 v
def wordOf (v : Int) : Word := BitVec.ofInt 16 v

def read (cpu : Cpu) (s : State) : Space → Word → Byte
  | .data, a => s.mem a
  | .io, a => s.io a
  | .code, a => cpu.code a

def write (s : State) : Space → Word → Byte → State
  | .data, a, v => {s with mem := fun x => if x = a then v else s.mem x}
  | .io, a, v => {s with io := fun x => if x = a then v else s.io x}
  | .code, _, _ => s

/-- A word is stored with its low byte first. -/
def read16 (cpu : Cpu) (s : State) (sp : Space) (a : Word) : Word := pair (read cpu s sp (a + 1)) (read cpu s sp a)
def write16 (s : State) (sp : Space) (a : Word) (w : Word) : State := write (write s sp a (lo w)) sp (a + 1) (hi w)

def before (s : State) (p : R16) : Move → State
  | .dec => s.set p (s.get p - 1)
  | _ => s

def after (s : State) (p : R16) : Move → State
  | .inc => s.set p (s.get p + 1)
  | _ => s

def Alu.op {n : Nat} : Alu → BitVec n → BitVec n → BitVec n
  | .add, a, b => a + b
  | .sub, a, b => a - b
  | .and, a, b => a &&& b
  | .or, a, b => a ||| b
  | .xor, a, b => a ^^^ b

def Sh.op : Sh → Word → Nat → Word
  | .ls, w, n => w <<< n
  | .rs, w, n => w >>> n
  | .rsa, w, n => w.sshiftRight n

/-- A stack with its top first. -/
def StackOp.op (o : StackOp) (top : Word) (deep : Nat → Word) : Word × (Nat → Word) :=
  match o with
  | .push => (top, fun n => match n with | 0 => top | n + 1 => deep n)
  | .pop => (deep 0, fun n => deep (n + 1))
  | .swap => (deep 0, fun n => match n with | 0 => top | n + 1 => deep (n + 1))

/-- The same operation on the stacks of several registers at a time. -/
def stackAll (o : StackOp) (rs : List R16) (s : State) : State :=
  {s with
    reg := fun q => if q.pair ∈ rs then
        (if q.isHi then hi (o.op (s.get q.pair) (s.deep q.pair)).1 else lo (o.op (s.get q.pair) (s.deep q.pair)).1) else s.reg q
    deep := fun r => if r ∈ rs then (o.op (s.get r) (s.deep r)).2 else s.deep r}

/-- What an instruction does, apart from where it jumps to. `next` is the address behind it. -/
def act (cpu : Cpu) (next : Word) (s : State) : Form Int → State
  | .nop => s
  | .ei => {s with on := true}
  | .di => {s with on := false}
  | .ext => s.set8 .f (if (s.reg .t).msb then 255 else 0)
  | .reti => (cpu.reti s).2
  | .ld8 d x => s.set8 d (s.reg x)
  | .ld16 d x => s.set d (s.get x)
  | .ldn8 d v => s.set8 d (byteOf v)
  | .ldn16 d v => s.set d (wordOf v)
  | .load8 sp d p m => let s := before s p m; after (s.set8 d (read cpu s sp (s.get p))) p m
  | .load16 sp d p m => let s := before s p m; after (s.set d (read16 cpu s sp (s.get p))) p m
  | .store8 sp p m x => let s := before s p m; after (write s sp (s.get p) (s.reg x)) p m
  | .store16 sp p m x => let s := before s p m; after (write16 s sp (s.get p) (s.get x)) p m
  | .lcrIn => s.set8 .t (s.ctl (s.reg .c))
  | .lcrOut => {s with ctl := fun x => if x = s.reg .c then s.reg .t else s.ctl x}
  | .alu8 o x => s.set8 .t (o.op (s.reg .t) (s.reg x))
  | .alun8 o d v => s.set8 d (o.op (s.reg d) (byteOf v))
  | .alu16 o x => s.set .ft (o.op (s.get .ft) (s.get x))
  | .alun16 o d v => s.set d (o.op (s.get d) (wordOf v))
  | .cmp8 x => s.set8 .f (cpu.flags8 (s.reg .t) (s.reg x))
  | .cmpn8 d v => s.set8 .f (cpu.flags8 (s.reg d) (byteOf v))
  | .cmp16 x => s.set8 .f (cpu.flags16 (s.get .ft) (s.get x))
  | .tst x => s.set8 .f (cpu.tst (s.get x))
  | .neg8 => s.set8 .t (-s.reg .t)
  | .neg16 => s.set .ft (-s.get .ft)
  | .not8 d => s.set8 d (~~~s.reg d)
  | .not16 => (s.set8 .t (~~~s.reg .t)).set8 .f (~~~s.reg .f)
  | .exg8 a b => (s.set8 a (s.reg b)).set8 b (s.reg a)
  | .exg16 a b => (s.set a (s.get b)).set b (s.get a)
  | .shift o x => s.set .ft (o.op (s.get .ft) (s.reg x).toNat)
  | .shiftn o v => s.set .ft (o.op (s.get .ft) v.toNat)
  | .stack o rs => stackAll o rs s
  | .pick r => s.set r (cpu.pick (s.reg r.lo) (s.get r) (s.deep r))
  | .pickn r v => let s := s.set8 r.lo (byteOf v); s.set r (cpu.pick (s.reg r.lo) (s.get r) (s.deep r))
  | .dj r _ => s.set8 r (s.reg r - 1)
  | .jc _ _ => s
  | .jr _ => s
  | .jal r => s.set (cpu.link r) next
  | .jaln v => (s.set .hl (wordOf v)).set (cpu.link .hl) next
  | .sys v => (cpu.sys (byteOf v) next s).2

/-- Where it jumps to. -/
def goto (cpu : Cpu) (next : Word) (s : State) : Form Int → Option Word
  | .reti => some (cpu.reti s).1
  | .dj r v => if s.reg r - 1 = 0 then none else some (wordOf v)
  | .jc none v => some (wordOf v)
  | .jc (some c) v => if cpu.holds c (s.reg .f) then some (wordOf v) else none
  | .jr r => some (s.get r)
  | .jal r => some (s.get r)
  | .jaln v => some (wordOf v)
  | .sys v => some (cpu.sys (byteOf v) next s).1
  | _ => none

/-- A signed byte. -/
def signed (n : Nat) : Int := if n < 128 then n else (n : Int) - 256

/-- The instructions of the processor (test/rc8/allcodes.rc8 3-325): the opcode at `pc` and the byte behind it; the number of
bytes and the instruction. A jump goes to the address of the byte with the distance plus the distance. -/
def decode (pc : Word) (op n : Nat) : Option (Nat × Form Int) :=
  let q := r8s[op % 8]?.getD .f
  let p := r16s[op % 4]?.getD .ft
  let to : Int := pc.toNat + 1 + signed n
  match op / 8 with
  | 0x00 =>
    if op = 0 then some (1, .nop)
    else if op < 4 then some (1, .store8 .data p .stay .t)
    else some (1, .load8 .data .t p .stay)
  | 0x01 =>
    if op = 0x0A then some (1, .lcrOut) else if op = 0x0B then some (1, .lcrIn)
    else if 0x0C ≤ op then some (1, .load8 .code .t p .stay) else none
  | 0x02 => if q = .t then none else some (1, .exg8 .t q)
  | 0x03 =>
    if op = 0x18 then some (1, .not8 .f) else if op = 0x1A then some (1, .ei) else if op = 0x1B then some (1, .di)
    else if 0x1C ≤ op then some (1, .pick p) else none
  | 0x04 => if q = .f ∨ q = .t then none else some (1, .store8 .data .ft .stay q)
  | 0x05 => if q = .t then none else some (1, .load8 .data q .ft .stay)
  | 0x06 =>
    if op = 0x30 then none
    else if op < 0x34 then some (1, .store8 .io p .stay .t)
    else some (1, .load8 .io .t p .stay)
  | 0x07 => if op < 0x3C then some (1, .jal p) else some (1, .jr p)
  | 0x08 => some (1, .alu8 .add q)
  | 0x09 => if q = .t then some (1, .ext) else some (1, .cmp8 q)
  | 0x0A => if q = .t then some (1, .neg8) else some (1, .alu8 .sub q)
  | 0x0B => if q = .t then some (1, .reti) else some (1, .ld8 .t q)
  | 0x0C => if q = .t then none else some (1, .alu8 .or q)
  | 0x0D => if q = .t then none else some (1, .alu8 .and q)
  | 0x0E => if q = .t then none else some (1, .alu8 .xor q)
  | 0x0F => if q = .t then none else some (1, .ld8 q .t)
  | 0x10 => some (2, .ldn8 q n)
  | 0x11 => some (2, .dj q to)
  | 0x12 => some (2, .jc (some (conds[op % 8]?.getD .le)) to)
  | 0x13 =>
    if op = 0x98 then some (2, .jc (some .eq) to) else if op = 0x99 then some (2, .jc (some .ne) to)
    else if op = 0x9A then some (2, .jc none to) else if op = 0x9B then some (2, .sys n) else none
  | 0x14 => some (2, .alun8 .add q n)
  | 0x15 => some (2, .cmpn8 q n)
  | 0x16 =>
    if op = 0xB0 then some (2, .alun8 .or .t n) else if op = 0xB1 then some (2, .alun8 .and .t n)
    else if op = 0xB2 then some (2, .alun8 .xor .t n) else none
  | 0x17 =>
    if op = 0xB8 then some (2, .shiftn .ls n) else if op = 0xB9 then some (2, .shiftn .rs n)
    else if op = 0xBB then some (2, .shiftn .rsa n)
    else if 0xBC ≤ op then some (2, .alun16 .add p (signed n)) else none
  | 0x18 => if op < 0xC4 then some (1, .stack .push [p]) else some (1, .stack .pop [p])
  | 0x19 =>
    if op < 0xCC then (if p = .ft then none else some (1, .exg16 .ft p))
    else if p = .ft then some (1, .stack .swap [.ft, .bc, .de, .hl]) else some (1, .cmp16 p)
  | 0x1A =>
    if op < 0xD4 then (if p = .ft then none else some (1, .ld16 p .ft)) else some (1, .tst p)
  | 0x1B =>
    if op < 0xDC then (if p = .ft then none else some (1, .ld16 .ft p)) else some (1, .stack .swap [p])
  | 0x1C => if q = .f ∨ q = .t then none else some (1, .shift .ls q)
  | 0x1D => if q = .f ∨ q = .t then none else some (1, .shift .rs q)
  | 0x1E =>
    if op < 0xF4 then (if p = .ft then some (1, .neg16) else some (1, .alu16 .sub p))
    else if p = .ft then none else some (1, .alu16 .add p)
  | 0x1F =>
    if op = 0xF8 then some (1, .stack .push [.ft, .bc, .de, .hl])
    else if op = 0xF9 then some (1, .stack .pop [.ft, .bc, .de, .hl])
    else some (1, .shift .rsa q)
  | _ => none

/-- One instruction is executed. -/
inductive Step (cpu : Cpu) : Word × State → Word × State → Prop
  | mk (pc : Word) (s : State) (n : Nat) (f : Form Int)
      (h : decode pc (cpu.code pc).toNat (cpu.code (pc + 1)).toNat = some (n, f)) :
      Step cpu (pc, s) ((goto cpu (pc + BitVec.ofNat 16 n) s f).getD (pc + BitVec.ofNat 16 n), act cpu (pc + BitVec.ofNat 16 n) s f)

/-- Instructions are executed. -/
inductive Runs (cpu : Cpu) : Word × State → Word × State → Prop
  | refl (x : Word × State) : Runs cpu x x
  | step {x y z : Word × State} (h : Step cpu x y) (h' : Runs cpu y z) : Runs cpu x z

/-- Bytes of the program. -/
def Loaded (cpu : Cpu) (a : Word) (bs : List Nat) : Prop :=
  ∀ i b, bs[i]? = some b → cpu.code (a + BitVec.ofNat 16 i) = BitVec.ofNat 8 b

/-- What the program does: the instruction, if the condition holds; nothing else. `next` is the address behind it. -/
def effect (cpu : Cpu) (c : Option Cond) (f : Form Int) (next : Word) (s : State) : Word × State :=
  match c with
  | none => ((goto cpu next s f).getD next, act cpu next s f)
  | some c => if cpu.holds c (s.reg .f) then ((goto cpu next s f).getD next, act cpu next s f) else (next, s)

/-! ### Lines of the source -/

/-- Operands. A list of registers has ranges such as `BC-HL`. -/
inductive Opnd where
  | r8 (r : R8)
  | r16 (r : R16)
  | regs (rs : List (R16 × Option R16))
  | ptr (r : R16) (m : Move)
  | indC
  | val (t : Tree)

def R8.tok (r : R8) : Tok :=
  .other ((match r with | .f => T.f | .t => T.t | .b => T.b | .c => T.c | .d => T.d | .e => T.e | .h => T.h | .l => T.l).num)

def R16.tok (r : R16) : Tok := .other ((match r with | .ft => T.ft | .bc => T.bc | .de => T.de | .hl => T.hl).num)

def ptrTok (r : R16) (m : Move) : Tok :=
  .other ((match r, m with
    | .ft, .stay => T.indFt | .bc, .stay => T.indBc | .de, .stay => T.indDe | .hl, .stay => T.indHl
    | .ft, .inc => T.incFt | .bc, .inc => T.incBc | .de, .inc => T.incDe | .hl, .inc => T.incHl
    | .ft, .dec => T.decFt | .bc, .dec => T.decBc | .de, .dec => T.decDe | .hl, .dec => T.decHl).num)

/-- The tokens of a list of registers. -/
def regsToks : List (R16 × Option R16) → Toks
  | [] => []
  | [(a, none)] => [a.tok]
  | [(a, some b)] => [a.tok, .op .sub, b.tok]
  | (a, none) :: rs => a.tok :: .op .div :: regsToks rs
  | (a, some b) :: rs => a.tok :: .op .sub :: b.tok :: .op .div :: regsToks rs

/-- Whether a register is in a list. -/
def covers (rs : List (R16 × Option R16)) (r : R16) : Bool :=
  rs.any fun (a, b) => decide (a.ctorIdx ≤ r.ctorIdx ∧ r.ctorIdx ≤ (b.getD a).ctorIdx)

/-- The registers of a list; it has at least two of them, and its ranges are written with the lower register first. -/
def listed (rs : List (R16 × Option R16)) : Option (List R16) :=
  if (rs.all fun (a, b) => match b with | none => true | some b => decide (a.ctorIdx < b.ctorIdx)) ∧ 2 ≤ (r16s.filter (covers rs)).length then
    some (r16s.filter (covers rs)) else none

def Opnd.toks : Opnd → Toks
  | .r8 r => [r.tok]
  | .r16 r => [r.tok]
  | .regs rs => regsToks rs
  | .ptr r m => [ptrTok r m]
  | .indC => [.other T.indC.num]
  | .val t => t.toks

/-- The operands with the comma between them. -/
def opndToks : List Opnd → Toks
  | [] => []
  | [a] => a.toks
  | a :: b :: _ => a.toks ++ .comma :: b.toks

def Cond.tok (c : Cond) : Tok :=
  .other ((match c with
    | .le => T.le | .gt => T.gt | .lt => T.lt | .ge => T.ge | .leu => T.leu | .gtu => T.gtu | .ltu => T.ltu | .geu => T.geu
    | .eq => T.eq | .ne => T.ne).num)

def condToks : Option Cond → Toks
  | none => []
  | some c => [.op .div, c.tok]

/-- Mnemonics. -/
inductive Mn where
  | add | and | cmp | di | dj | ei | exg | ext | j | jal | lco | lcr | ld | lio | ls | neg | nop | not | or | pick | pop | popa
  | push | pusha | reti | rs | rsa | sub | swap | swapa | sys | tst | xor
  deriving DecidableEq

def Mn.tok (m : Mn) : Tok := .other (6000 + m.ctorIdx)

/-- The line of an instruction. -/
def line (m : Mn) (c : Option Cond) (os : List Opnd) : Toks := m.tok :: condToks c ++ opndToks os

/-- The instruction that a line stands for: what the processor has, and what the assembler makes up of that. -/
def form : Mn → List Opnd → Option (Form Tree)
  | .nop, [] => some .nop
  | .ei, [] => some .ei
  | .di, [] => some .di
  | .ext, [] => some .ext
  | .reti, [] => some .reti
  | .pusha, [] => some (.stack .push [.ft, .bc, .de, .hl])
  | .popa, [] => some (.stack .pop [.ft, .bc, .de, .hl])
  | .swapa, [] => some (.stack .swap [.ft, .bc, .de, .hl])
  | .push, [.r16 r] => some (.stack .push [r])
  | .pop, [.r16 r] => some (.stack .pop [r])
  | .swap, [.r16 r] => some (.stack .swap [r])
  | .push, [.regs rs] => (listed rs).map (.stack .push)
  | .pop, [.regs rs] => (listed rs).map (.stack .pop)
  | .swap, [.regs rs] => (listed rs).map (.stack .swap)
  | .tst, [.r16 r] => some (.tst r)
  | .sys, [.val v] => some (.sys v)
  | .pick, [.r16 r] => some (.pick r)
  | .pick, [.r16 r, .val v] => some (.pickn r v)
  | .neg, [.r8 .t] => some .neg8
  | .neg, [.r16 .ft] => some .neg16
  | .not, [.r8 .t] => some (.not8 .t)
  | .not, [.r8 .f] => some (.not8 .f)
  | .not, [.r16 .ft] => some .not16
  | .lcr, [.indC, .r8 .t] => some .lcrOut
  | .lcr, [.r8 .t, .indC] => some .lcrIn
  | .dj, [.r8 r, .val v] => some (.dj r v)
  | .j, [.val v] => some (.jc none v)
  | .j, [.ptr r .stay] => some (.jr r)
  | .jal, [.val v] => some (.jaln v)
  | .jal, [.ptr r .stay] => some (.jal r)
  | .add, [.r8 s] | .add, [.r8 .t, .r8 s] => some (.alu8 .add s)
  | .add, [.r16 s] | .add, [.r16 .ft, .r16 s] => if s = .ft then none else some (.alu16 .add s)
  | .add, [.r8 d, .val v] => some (.alun8 .add d v)
  | .add, [.r16 d, .val v] => some (.alun16 .add d v)
  | .sub, [.r8 s] | .sub, [.r8 .t, .r8 s] => some (.alu8 .sub s)
  | .sub, [.r16 s] | .sub, [.r16 .ft, .r16 s] => if s = .ft then none else some (.alu16 .sub s)
  | .sub, [.r8 d, .val v] => some (.alun8 .sub d v)
  | .sub, [.r16 d, .val v] => some (.alun16 .sub d v)
  | .and, [.r8 s] | .and, [.r8 .t, .r8 s] => if s = .t then none else some (.alu8 .and s)
  | .and, [.val v] | .and, [.r8 .t, .val v] => some (.alun8 .and .t v)
  | .or, [.r8 s] | .or, [.r8 .t, .r8 s] => if s = .t then none else some (.alu8 .or s)
  | .or, [.val v] | .or, [.r8 .t, .val v] => some (.alun8 .or .t v)
  | .xor, [.r8 s] | .xor, [.r8 .t, .r8 s] => if s = .t then none else some (.alu8 .xor s)
  | .xor, [.val v] | .xor, [.r8 .t, .val v] => some (.alun8 .xor .t v)
  | .cmp, [.r8 s] | .cmp, [.r8 .t, .r8 s] => if s = .t then none else some (.cmp8 s)
  | .cmp, [.r16 s] | .cmp, [.r16 .ft, .r16 s] => if s = .ft then none else some (.cmp16 s)
  | .cmp, [.r8 d, .val v] => some (.cmpn8 d v)
  | .exg, [.r8 s] => if s = .t then none else some (.exg8 .t s)
  | .exg, [.r8 d, .r8 s] => if s = .t ∧ d = .t then none else some (.exg8 d s)
  | .exg, [.r16 s] => if s = .ft then none else some (.exg16 .ft s)
  | .exg, [.r16 d, .r16 s] => if s = .ft ∧ d = .ft then none else some (.exg16 d s)
  | .ls, [.r8 s] | .ls, [.r16 .ft, .r8 s] => if s = .f ∨ s = .t then none else some (.shift .ls s)
  | .ls, [.val v] | .ls, [.r16 .ft, .val v] => some (.shiftn .ls v)
  | .rs, [.r8 s] | .rs, [.r16 .ft, .r8 s] => if s = .f ∨ s = .t then none else some (.shift .rs s)
  | .rs, [.val v] | .rs, [.r16 .ft, .val v] => some (.shiftn .rs v)
  | .rsa, [.r8 s] | .rsa, [.r16 .ft, .r8 s] => if s = .f ∨ s = .t then none else some (.shift .rsa s)
  | .rsa, [.val v] | .rsa, [.r16 .ft, .val v] => some (.shiftn .rsa v)
  | .ld, [.r8 d, .val v] => some (.ldn8 d v)
  | .ld, [.r16 d, .val v] => some (.ldn16 d v)
  | .ld, [.r8 d, .r8 s] => if (d = .t) = (s = .t) then none else some (.ld8 d s)
  | .ld, [.r16 d, .r16 s] => if (d = .ft) = (s = .ft) then none else some (.ld16 d s)
  | .ld, [.r8 d, .ptr p m] =>
    if d = .t then (if p = .ft ∧ m ≠ .stay then none else some (.load8 .data d p m))
    else if p = .ft then some (.load8 .data d p m) else none
  | .ld, [.r16 d, .ptr p m] => if (d = .ft) = (p = .ft) then none else some (.load16 .data d p m)
  | .ld, [.ptr p m, .r8 s] =>
    if p = .ft then (if s = .f ∨ s = .t then none else some (.store8 .data p m s))
    else if s = .t then some (.store8 .data p m s) else none
  | .ld, [.ptr p m, .r16 s] => if (p = .ft) = (s = .ft) then none else some (.store16 .data p m s)
  | .lco, [.r8 .t, .ptr p m] => if p = .ft ∧ m ≠ .stay then none else some (.load8 .code .t p m)
  | .lco, [.r16 .ft, .ptr p m] => if p = .ft then none else some (.load16 .code .ft p m)
  | .lio, [.r8 .t, .ptr p m] => if p = .ft ∧ m ≠ .stay then none else some (.load8 .io .t p m)
  | .lio, [.r16 .ft, .ptr p m] => if p = .ft ∨ m = .stay then none else some (.load16 .io .ft p m)
  | .lio, [.ptr p m, .r8 .t] => if p = .ft then none else some (.store8 .io p m .t)
  | .lio, [.ptr p m, .r16 .ft] => if p = .ft ∨ m = .stay then none else some (.store16 .io p m .ft)
  | _, _ => none

/-- The instructions that are assembled wrongly. -/
def Form.wrong {V : Type} : Form V → Bool
  | .alu8 .sub .t => true
  | .exg8 a b => a == b
  | .exg16 a b => a == b
  | .load16 .code _ _ .stay => true
  | .store8 .io .de .inc _ | .store8 .io .de .dec _ => true
  | .store16 .io .de .inc _ | .store16 .io .de .dec _ => true
  | _ => false

/-- The values that an instruction can have, at an address. `known` tells whether the assembler knows the value when it reads
the instruction. -/
def Form.fits (known : Bool) (pc : Int) : Form Int → Bool
  | .ldn8 _ v => decide (-128 ≤ v ∧ v ≤ 255)
  | .ldn16 _ v | .jaln v => decide ((if known then -32768 else 0) ≤ v ∧ v ≤ 65535)
  | .alun8 .sub _ v => decide (-255 ≤ v ∧ v ≤ 128)
  | .alun8 _ _ v => decide (-128 ≤ v ∧ v ≤ 255)
  | .alun16 .sub _ v => decide (-32640 < v ∧ v ≤ 32768 ∨ v = -32768)
  | .alun16 _ _ v => decide (-32768 ≤ v ∧ v < 32640 ∨ 32767 < v ∧ v ≤ 65535)
  | .cmpn8 _ v | .sys v => decide (-32768 ≤ v ∧ v ≤ 65535)
  | .shiftn _ v => decide (0 ≤ v ∧ v ≤ 15)
  | .pickn _ v => decide (0 ≤ v ∧ v ≤ 255)
  | .dj _ v | .jc _ v => decide (-128 ≤ v - (pc + 1) ∧ v - (pc + 1) ≤ 127)
  | _ => true

/-- The instruction with its value, if that exists. -/
def Form.eval (g : Tree → Option Int) (f : Form Tree) : Option (Form Int) :=
  match f.val with
  | none => some (f.map fun _ => 0)
  | some t => (g t).map fun v => f.map fun _ => v

/-- Bytes at an address do what the instruction says, and the program goes on behind them or where it says. -/
def Meets (c : Option Cond) (g : Form Int) (pc : Int) (bs : List Nat) : Prop :=
  ∀ cpu s, Loaded cpu (wordOf pc) bs → Runs cpu (wordOf pc, s) (effect cpu c g (wordOf (pc + bs.length)) s)

end Verif.Cpu.Rc8
