import Verif.Section.Model
/-!
# Directives and labels

What the directives of xasm/motor/parse_directive.c do with the current section once their operands have been read.
Constants are 32 bit numbers. Expressions that are not constant are not looked into; `rng` is what `expr_CheckRange` makes
of them. The handlers return whether the directive was accepted; if not, `parse_Until` (xasm/motor/parse.c 155-180) reports
an error unless the next token is the end of the line.
-/
namespace Verif.Section

variable {α : Type}

/-- One operand of a data directive: nothing between commas, an expression, or a string literal. -/
inductive Item (α : Type) where
  | nothing
  | const (v : Int)
  | later (e : α)
  | text (bs : Bytes)
  deriving Repr

/-- The value of a short string literal (xasm/motor/parse_expression.c 125-136). -/
def charValue (bs : Bytes) : Nat := bs.foldl (fun v b => (v * 256 + b.toNat) % W32) 0

/-- `expr_CheckRange` (xasm/motor/expression.c 357-368) for a constant: outside of the range an error is reported and the
value is zero. -/
def checkRange (low high v : Int) (s : State α) : Int × State α :=
  if low ≤ v ∧ v ≤ high then (v, s) else (0, s.error)

/-- The ranges in `handleDb` and `handleDw` (xasm/motor/parse_directive.c 405, 436); `handleDl` has none. -/
def checkSize (size : Size) (v : Int) (s : State α) : Int × State α :=
  match size with
  | .one => checkRange (-128) 255 v s
  | .two => checkRange (-32768) 65535 v s
  | .four => (v, s)

/-- `sect_OutputConst8` for every character up to the first zero (xasm/motor/parse_directive.c 412-415). -/
def outputText (cfg : Config) (env : Env) : Bytes → State α → Outcome (State α)
  | [], s => .ok s
  | b :: bs, s =>
    if b = 0 then .ok s else (outputConst cfg env .one b.toNat s).bind fun s => outputText cfg env bs s

def outputValue (cfg : Config) (env : Env) (size : Size) (v : Int) (s : State α) : Outcome (State α) :=
  let r := checkSize size v s
  outputExpr cfg env size (.known r.1) r.2

/-- One pass of the loops of `handleDb` (xasm/motor/parse_directive.c 395-421), `handleDw` (428-445) and `handleDl`
(452-469), without floating point numbers. `last` tells that no comma follows. A string literal that is too long for `DW` and
`DL` is not an expression, and the token that ends the directive is not understood: the second error is that of
`parse_Until`. The result tells whether the loop goes on. -/
def dataItem (cfg : Config) (env : Env) (rng : Size → α → α) (size : Size) (last : Bool) (item : Item α) (s : State α) :
    Outcome (Bool × State α) :=
  match item with
  | .const v => (outputValue cfg env size v s).bind fun s => .ok (true, s)
  | .later e => (outputExpr cfg env size (.later (rng size e)) s).bind fun s => .ok (true, s)
  | .text bs =>
    if bs.length ≤ size.bytes then (outputValue cfg env size (asSigned (charValue bs)) s).bind fun s => .ok (true, s)
    else if size = .one then (outputText cfg env bs s).bind fun s => .ok (true, s)
    else (skipBytes cfg env size.bytes s.error).bind fun s => .ok (false, s.error)
  | .nothing =>
    let s := if size ≠ .one ∧ last then s.error else s
    (skipBytes cfg env size.bytes s).bind fun s => .ok (true, s)
where
  /-- The conversion to `int32_t`. -/
  asSigned (v : Nat) : Int := if v < 2 ^ 31 then v else v - 2 ^ 32

/-- `DB`, `DW` and `DL` (xasm/motor/parse_directive.c 393-472). There is always at least one operand, possibly nothing. -/
def dataItems (cfg : Config) (env : Env) (rng : Size → α → α) (size : Size) : List (Item α) → State α → Outcome (State α)
  | [], s => .ok s
  | item :: items, s =>
    (dataItem cfg env rng size items.isEmpty item s).bind fun r =>
      if r.1 then dataItems cfg env rng size items r.2 else .ok r.2

/-- `DD` (xasm/motor/parse_directive.c 474-488) for a number with the 64 bits `v`: `sect_OutputFloat64`
(xasm/motor/section.c 460-468). -/
def outputDouble (cfg : Config) (env : Env) (v : Nat) (s : State α) : Outcome (State α) :=
  (outputConst cfg env .four (v % W32) s).bind fun s => outputConst cfg env .four (v / W32 % W32) s

/-- `DSB`, `DSW`, `DSL` and `DSD` (xasm/motor/parse_directive.c 297-309); the multipliers are 1, 2, 4 and 8. -/
def defineSpace (cfg : Config) (env : Env) (multiplier : Nat) (count : Int) (s : State α) : Outcome (State α) :=
  if 0 ≤ count then skipBytes cfg env (count.toNat * multiplier % W32) s else .ok s.error

/-- `CNOP` (xasm/motor/parse_directive.c 371-391). `EVEN` (364-369) is `sect_Align(2)`. -/
def cnop (cfg : Config) (env : Env) (offset align : Int) (s : State α) : Outcome (State α) :=
  if 0 ≤ offset then
    if 0 ≤ align then (alignBytes cfg env align.toNat s).bind fun s => skipBytes cfg env offset.toNat s
    else .ok s.error
  else .ok s.error

/-- What follows a comma in a `SECTION` directive; `none` stands for missing brackets. `other` is a token that is not
expected and that is not the name of a macro, `nothing` is the end of the line. -/
inductive Attr where
  | bank (v : Option Nat)
  | align (v : Option Nat)
  | page (v : Option Nat)
  | root
  | other
  | nothing
  deriving Repr, DecidableEq

/-- `parseBracketedConstant` (xasm/motor/parse_directive.c 106-117). -/
def bracketed (v : Option Nat) : Nat := v.getD U32MAX

/-- The loop in `handleSection` (xasm/motor/parse_directive.c 200-232). `.inr true` means that the handler gave up at the end
of the line, `.inr false` that it gave up at another token. -/
def attributes (cfg : Config) : List Attr → Kind → Kind ⊕ Bool
  | [], k => .inl k
  | .bank v :: as, k =>
    if !cfg.banks || k.bank ≠ U32MAX then .inr (v.isNone && as.isEmpty)
    else attributes cfg as { k with bank := bracketed v, flags := { k.flags with bankFixed := true } }
  | .align v :: as, k =>
    if k.align ≠ U32MAX then .inr (v.isNone && as.isEmpty)
    else attributes cfg as { k with align := bracketed v, flags := { k.flags with aligned := true } }
  | .page v :: as, k =>
    if k.page ≠ U32MAX then .inr (v.isNone && as.isEmpty)
    else attributes cfg as { k with page := bracketed v, flags := { k.flags with paged := true } }
  | .root :: as, k => attributes cfg as { k with flags := { k.flags with root := true } }
  | .other :: _, _ => .inr false
  | .nothing :: as, _ => .inr as.isEmpty

/-- `handleSection` (xasm/motor/parse_directive.c 157-252) when a group is given; `sect_SwitchTo_KIND` is not used when there
are no attributes. -/
def sectionDirective (cfg : Config) (name : String) (g : Group) (address : Option Nat) (as : List Attr) (s : State α) :
    Outcome (State α) :=
  let origin := bracketed address
  match attributes cfg as ⟨{ loadFixed := origin ≠ U32MAX }, origin, U32MAX, U32MAX, U32MAX⟩ with
  | .inr atEnd => .ok (if atEnd then s else s.error)
  | .inl k =>
    if k.flags.aligned && k.flags.loadFixed then
      if k.align = 0 then .ub
      else if k.origin % k.align ≠ 0 then .ok s.error
      else switchKind cfg name g { k with align := U32MAX, flags := { k.flags with aligned := false } } s
    else if k.flags = {} then .ok (switchTo name g s)
    else switchKind cfg name g k s

/-- `handleSection` without a group (xasm/motor/parse_directive.c 165-169): `parse_ExpectChar` (xasm/motor/parse.c 122-131)
has reported an error. -/
def sectionName (name : String) (s : State α) : State α := switchName name s.error

/-- What a label is (xasm/motor/symbol.c 462-477): a constant, or an offset in a section. -/
inductive Label where
  | constant (v : Nat)
  | inside (sect : Nat) (offset : Nat)
  deriving Repr, DecidableEq

/-- `sym_CreateLabel` (xasm/motor/symbol.c 454-484) for a symbol that can be defined; `none` when an error is reported. -/
def label (s : State α) : Option Label :=
  match s.current, s.sect with
  | some i, some x =>
    some (if (x.flags.loadFixed || x.flags.orgFixed) && !x.flags.bankFixed then
      .constant ((x.pc + x.adjust + x.origin) % W32) else .inside i x.pc)
  | _, _ => none

end Verif.Section
