import Verif.Expr.Link
import Verif.Config.Options
/-!
# Memory layout files (`xlink/machinedefinition.c`)

A line is a list of characters without the character 0. The static variables `token` and `token_length` and the
position in the line are the parser state. `string`, `vec`, `strmap` and `str_ReadLineFromFile` belong to `util`, which
is not part of the code: a file is a list of lines.
-/
namespace Verif.Layout
open Verif.Expr (Env FMath calculate u32 toI32)
open Verif.Config (Format Choice Cfg)
open Verif.Assign (Pool MGroup)

/-- `token`, `token_length` and `*line`. An empty token is `token_length == 0`. -/
structure St where
  tok : List Char
  rest : List Char
  deriving Repr, DecidableEq

/-- `DELIMITERS` (xlink/machinedefinition.c 53). -/
def delim (c : Char) : Bool :=
  [' ', '\t', '\n', '$', '%', '+', '-', '*', '/', '(', ')', '[', ']', ':', '@', ';', ',', '.'].contains c

/-- Characters that are tokens of their own (xlink/machinedefinition.c 94-107). -/
def single (c : Char) : Bool :=
  ['$', '%', '+', '-', '*', '/', '(', ')', '[', ']', ':', '@', ',', '.'].contains c

def blank (c : Char) : Bool := c == ' ' || c == '\t'

/-- `nextToken` (xlink/machinedefinition.c 84-121). -/
def nextToken (s : List Char) : St :=
  match s.dropWhile blank with
  | [] => ⟨[], []⟩
  | c :: r =>
    if c = ';' then ⟨[], c :: r⟩
    else if single c then ⟨[c], r⟩
    else ⟨(c :: r).takeWhile (fun x => !delim x), (c :: r).dropWhile (fun x => !delim x)⟩

/-- The body of the loop in `parseInteger` (xlink/machinedefinition.c 166-173). -/
def digit (c : Char) : Option Nat :=
  if '0' ≤ c ∧ c ≤ '9' then some (c.toNat - '0'.toNat)
  else if 'A' ≤ c ∧ c ≤ 'Z' then some (c.toNat - 'A'.toNat + 10)
  else if 'a' ≤ c ∧ c ≤ 'z' then some (c.toNat - 'a'.toNat + 10)
  else none

/-- The loop in `parseInteger` (xlink/machinedefinition.c 163-179). -/
def digits (base : Nat) : List Char → Nat → Option Nat
  | [], v => some v
  | c :: cs, v =>
    match digit c with
    | none => none
    | some d => if d ≥ base then none else digits base cs ((v * base + d) % W32)

/-- `appendConstant` (xlink/machinedefinition.c 70-82). -/
def constant (v : Nat) : Bytes := put8 30 ++ put32le v

/-- What a parsing function returns, what it has appended to the expression and the state it leaves. -/
structure Res where
  ok : Bool
  code : Bytes
  st : St
  deriving Repr, DecidableEq

/-- `parseInteger` (xlink/machinedefinition.c 149-186). The prefix of binary numbers is compared with `"%%"`, which is
two characters: outside of a format string `%` is not doubled. -/
def parseInteger (st : St) : Res :=
  if st.tok = [] then ⟨false, [], st⟩
  else
    let p := if st.tok = ['$'] then (16, nextToken st.rest)
      else if st.tok = ['%', '%'] then (2, nextToken st.rest)
      else (10, st)
    match digits p.1 p.2.tok 0 with
    | none => ⟨false, [], p.2⟩
    | some v => ⟨true, constant v, nextToken p.2.rest⟩

/-- `g_parsePool` with `pool_index`, and `g_parseSymbol` with the groups that exist: names to group numbers. -/
structure Ctx where
  index : Option Nat
  group : Option (List Char → Option Nat)

/-- `parseExpression_4` (xlink/machinedefinition.c 191-238). After the property of a group it returns false. -/
def parse4 (ctx : Ctx) (st : St) : Outcome Res :=
  match ctx.index, st.tok with
  | some i, ['@'] => .ok ⟨true, constant i, nextToken st.rest⟩
  | _, _ =>
    let r := parseInteger st
    if r.ok then .ok r
    else
      match ctx.group with
      | none => .ok r
      | some find =>
        if r.st.tok = [] then .ok r
        else
          match find r.st.tok with
          | none => .fail
          | some id =>
            let dot := nextToken r.st.rest
            if dot.tok = ['.'] then
              let prop := nextToken dot.rest
              if prop.tok = "start".toList then .ok ⟨false, constant id ++ constant 0 ++ put8 35, nextToken prop.rest⟩
              else if prop.tok = "size".toList then .ok ⟨false, constant id ++ constant 1 ++ put8 35, nextToken prop.rest⟩
              else .fail
            else .fail

mutual
/-- `parseExpression_3` (xlink/machinedefinition.c 240-265). The first argument bounds the number of steps; the text is
always shorter, see `parse1_total`. -/
def parse3 (ctx : Ctx) : Nat → St → Outcome Res
  | 0, _ => .ub
  | n + 1, st =>
    if st.tok = ['+'] then parse3 ctx n (nextToken st.rest)
    else if st.tok = ['-'] then
      (parse3 ctx n (nextToken st.rest)).bind fun r =>
        .ok ⟨r.ok, constant 0 ++ r.code ++ (if r.ok then put8 0 else []), r.st⟩
    else if st.tok = ['('] then
      (parse1 ctx n (nextToken st.rest)).bind fun r =>
        if r.ok && r.st.tok == [')'] then .ok ⟨true, r.code, nextToken r.st.rest⟩ else .ok ⟨false, r.code, r.st⟩
    else parse4 ctx st

/-- `parseExpression_2` (xlink/machinedefinition.c 267-289). -/
def parse2 (ctx : Ctx) : Nat → St → Outcome Res
  | 0, _ => .ub
  | n + 1, st =>
    (parse3 ctx n st).bind fun r =>
      if r.ok then (loop2 ctx n r.st).bind fun t => .ok ⟨true, r.code ++ t.code, t.st⟩ else .ok r

/-- The loop of `parseExpression_2` (xlink/machinedefinition.c 270-284): a missing operand is ignored. -/
def loop2 (ctx : Ctx) : Nat → St → Outcome Res
  | 0, _ => .ub
  | n + 1, st =>
    if st.tok = ['*'] ∨ st.tok = ['/'] then
      (parse3 ctx n (nextToken st.rest)).bind fun r =>
        (loop2 ctx n r.st).bind fun t =>
          .ok ⟨true, r.code ++ (if r.ok then put8 (if st.tok = ['*'] then 7 else 8) else []) ++ t.code, t.st⟩
    else .ok ⟨true, [], st⟩

/-- `parseExpression_1` (xlink/machinedefinition.c 291-313). -/
def parse1 (ctx : Ctx) : Nat → St → Outcome Res
  | 0, _ => .ub
  | n + 1, st =>
    (parse2 ctx n st).bind fun r =>
      if r.ok then (loop1 ctx n r.st).bind fun t => .ok ⟨true, r.code ++ t.code, t.st⟩ else .ok r

/-- The loop of `parseExpression_1` (xlink/machinedefinition.c 294-308). -/
def loop1 (ctx : Ctx) : Nat → St → Outcome Res
  | 0, _ => .ub
  | n + 1, st =>
    if st.tok = ['+'] ∨ st.tok = ['-'] then
      (parse2 ctx n (nextToken st.rest)).bind fun r =>
        (loop1 ctx n r.st).bind fun t =>
          .ok ⟨true, r.code ++ (if r.ok then put8 (if st.tok = ['+'] then 1 else 0) else []) ++ t.code, t.st⟩
    else .ok ⟨true, [], st⟩
end

def steps (st : St) : Nat := 3 * (st.tok.length + st.rest.length) + 3

/-- Operators that layout files do not use. -/
def noFMath : FMath where
  fdiv _ _ := 0
  fmul _ _ := 0
  atan2 _ _ := 0
  un _ _ := 0
  fdiv_range _ _ := by decide
  fmul_range _ _ := by decide
  atan2_range _ _ := by decide
  un_range _ _ := by decide

/-- `patch_EvaluateExpression` (xlink/patch.c 752-756) has no patch and no section; the expressions of pools have no
symbols and no groups. -/
def noEnv : Env where
  symbol _ := .fail
  bank _ := .fail
  groupProperty _ _ := .fail
  cpuLocation := 0
  offset := 0

/-- `parseExpression` (xlink/machinedefinition.c 315-333): `none` if it returns false. -/
def parseExpression (ctx : Ctx) (st : St) : Outcome (Option Nat × St) :=
  (parse1 ctx (steps st) st).bind fun r =>
    if r.ok then
      (calculate noFMath noEnv r.code).bind fun v => .ok (v.map (fun e => u32 e.value), r.st)
    else .ok (none, r.st)

/-- `expectExpression` (xlink/machinedefinition.c 344-351), also the conditions of `parsePool` (358, 369): `ERROR` does
not return. -/
def expectExpression (ctx : Ctx) (st : St) : Outcome (Nat × St) :=
  (parseExpression ctx st).bind fun r =>
    match r.1 with
    | some v => .ok (v, r.2)
    | none => .fail

/-- `expectToken` (xlink/machinedefinition.c 131-137). -/
def expectToken (t : List Char) (st : St) : Outcome St := if st.tok = t then .ok (nextToken st.rest) else .fail

/-- `parsePool` (xlink/machinedefinition.c 353-371) with `parseOptionalExpression` (335-342) and `pool_Create`
(xlink/group.c 351-365). -/
def parsePool (index : Nat) (st : St) : Outcome (Pool × St) :=
  let ctx : Ctx := ⟨some index, none⟩
  (expectExpression ctx st).bind fun a =>
  (expectExpression ctx a.2).bind fun b =>
  (expectExpression ctx b.2).bind fun s =>
  (parseExpression ctx s.2).bind fun i =>
  (if i.2.tok = [':'] then expectExpression ctx (nextToken i.2.rest) else .ok (U32MAX, i.2)).bind fun o =>
    let image := i.1.getD U32MAX
    .ok (⟨if image = U32MAX then none else some image, o.1, a.1, toI32 b.1, s.1, []⟩, o.2)

/-- What has been read so far: the pools in the order of their creation, `pool_map` (names to positions), the groups,
the symbols with their expressions, `g_allowedFormats`, `g_cbmHeaderAddress` and `pool_index`. -/
structure Layout where
  pools : List Pool := []
  map : List (List Char × List Nat) := []
  groups : List MGroup := []
  symbols : List (List Char × Bytes) := []
  formats : List Format := []
  header : Nat := 0
  index : Nat := 0
  deriving Repr, DecidableEq

/-- `strmap_Insert` of new pools. What happens to the old value of a name is up to `util`: not modelled. -/
def Layout.insert (l : Layout) (name : List Char) (ps : List Pool) : Outcome Layout :=
  if (l.map.find? fun x => x.1 == name).isSome then .ub
  else .ok { l with
    pools := l.pools ++ ps, map := l.map ++ [(name, (List.range ps.length).map (· + l.pools.length))] }

/-- `parsePoolDirective` (xlink/machinedefinition.c 373-384). -/
def parsePoolDirective (l : Layout) (st : St) : Outcome (Layout × St) :=
  if st.tok = [] then .fail
  else
    (parsePool l.index (nextToken st.rest)).bind fun p =>
      (l.insert st.tok [p.1]).bind fun l => .ok (l, p.2)

/-- The loop in `parsePoolsDirective` (xlink/machinedefinition.c 432-436). -/
def poolsLoop (params : List Char) : Nat → Nat → St → Outcome (List Pool × St)
  | 0, _, st => .ok ([], st)
  | n + 1, i, _ =>
    (parsePool i (nextToken params)).bind fun p =>
      (poolsLoop params n (i + 1) p.2).bind fun r => .ok (p.1 :: r.1, r.2)

/-- `parsePoolsDirective` (xlink/machinedefinition.c 416-438). If the range ends at `UINT32_MAX` the loop does not end,
and if it has more than `INT_MAX` elements the array is too small. An empty range leaves the token `]`, which is an
error (570). -/
def parsePoolsDirective (l : Layout) (st : St) : Outcome (Layout × St) :=
  if st.tok = [] then .fail
  else
    (expectToken ['['] (nextToken st.rest)).bind fun s1 =>
    (expectExpression ⟨none, none⟩ s1).bind fun a =>
    (expectToken [':'] a.2).bind fun s2 =>
    (expectExpression ⟨none, none⟩ s2).bind fun b =>
      if b.2.tok = [']'] then
        if b.1 = U32MAX ∨ b.1 + 1 > a.1 + 2147483647 then .ub
        else
          (poolsLoop b.2.rest (b.1 + 1 - a.1) a.1 b.2).bind fun r =>
            (l.insert st.tok r.1).bind fun l => .ok ({ l with index := max a.1 (b.1 + 1) }, r.2)
      else .fail

/-- The loop in `parseGroupDirective` (xlink/machinedefinition.c 459-472). The first argument bounds the number of
steps. -/
def groupLoop (map : List (List Char × List Nat)) : Nat → St → Outcome (List Nat × St)
  | 0, _ => .ub
  | n + 1, st =>
    if st.tok = [] then .ok ([], st)
    else
      match map.find? fun x => x.1 == st.tok with
      | none => .fail
      | some x => (groupLoop map n (nextToken st.rest)).bind fun r => .ok (x.2 ++ r.1, r.2)

/-- `parseGroupDirective` (xlink/machinedefinition.c 440-485). `group_Create` (xlink/group.c 290-308) copies 255
characters of the name and leaves the last one uninitialised. -/
def parseGroupDirective (l : Layout) (st : St) : Outcome (Layout × St) :=
  if st.tok = [] then .fail
  else
    let s1 := nextToken st.rest
    let s2 := if s1.tok = [':'] then nextToken (nextToken s1.rest).rest else s1
    if s2.tok = [] then .fail
    else
      (groupLoop l.map (s2.tok.length + s2.rest.length + 1) s2).bind fun r =>
        if st.tok.length ≥ 256 then .ub
        else .ok ({ l with groups := l.groups ++ [⟨String.ofList st.tok, r.1⟩] }, r.2)

/-- `group_Find` (xlink/group.c 310-319): the position in the list is `groupId` (297, 303). -/
def Layout.findGroup (l : Layout) (name : List Char) : Option Nat :=
  l.groups.findIdx? fun g => g.name.toList == name

/-- `parseSymbolDirective` (xlink/machinedefinition.c 386-414). The result of `parseExpression_1` is ignored. The name is
copied to an array of 256 characters. -/
def parseSymbolDirective (l : Layout) (st : St) : Outcome (Layout × St) :=
  if st.tok = [] then .fail
  else if st.tok.length ≥ 256 then .ub
  else
    let s := nextToken st.rest
    (parse1 ⟨none, some l.findGroup⟩ (steps s) s).bind fun r =>
      .ok ({ l with symbols := l.symbols ++ [(st.tok, r.code)] }, r.st)

/-- Formats without an argument (xlink/machinedefinition.c 495-520). -/
def formatNames : List (String × Format) :=
  [("BIN", .binary), ("GAME_BOY", .gameBoy), ("HUNK_EXE", .amigaExecutable), ("HUNK_OBJ", .amigaLinkObject),
   ("MEGA_DRIVE", .megaDrive), ("MASTER_SYSTEM", .masterSystem), ("HC800_KERNEL", .hc800Kernel), ("HC800", .hc800),
   ("PGZ", .pgz), ("KUP", .f256Kup), ("KUPP", .f256KupPad), ("COCO_QL", .cocoBin), ("MEGA65_PRG", .mega65Prg)]

/-- `parseFormat` (xlink/machinedefinition.c 487-526). `g_cbmHeaderAddress` has 16 bits (xlink/main.c 59). -/
def parseFormat (l : Layout) (st : St) : Outcome (Layout × St) :=
  if st.tok = "CBM_PRG".toList then
    (expectToken ['['] (nextToken st.rest)).bind fun s1 =>
    (expectExpression ⟨none, none⟩ s1).bind fun a =>
    (expectToken [']'] a.2).bind fun s2 =>
      .ok ({ l with header := a.1 % 65536, formats := l.formats ++ [.cbmPrg] }, nextToken s2.rest)
  else
    match formatNames.find? fun x => x.1.toList == st.tok with
    | some x => .ok ({ l with formats := l.formats ++ [x.2] }, nextToken st.rest)
    | none => .fail

/-- The loop in `parseFormatsDirective` (xlink/machinedefinition.c 533-535). The first argument bounds the number of
steps. -/
def formatsLoop : Nat → Layout → St → Outcome (Layout × St)
  | 0, _, _ => .ub
  | n + 1, l, st => if st.tok = [] then .ok (l, st) else (parseFormat l st).bind fun r => formatsLoop n r.1 r.2

/-- `parseFormatsDirective` (xlink/machinedefinition.c 528-536). -/
def parseFormatsDirective (l : Layout) (st : St) : Outcome (Layout × St) :=
  if st.tok = [] then .fail else formatsLoop (st.tok.length + st.rest.length + 1) l st

/-- The choice of the directive in `parseLine` (xlink/machinedefinition.c 545-564). -/
def parseDirective (l : Layout) (st : St) : Outcome (Layout × St) :=
  if st.tok = "POOL".toList then parsePoolDirective l (nextToken st.rest)
  else if st.tok = "POOLS".toList then parsePoolsDirective l (nextToken st.rest)
  else if st.tok = "GROUP".toList then parseGroupDirective l (nextToken st.rest)
  else if st.tok = "SYMBOL".toList then parseSymbolDirective l (nextToken st.rest)
  else if st.tok = "FORMATS".toList then parseFormatsDirective l (nextToken st.rest)
  else .fail

/-- `parseLine` (xlink/machinedefinition.c 538-571). -/
def parseLine (l : Layout) (line : List Char) : Outcome Layout :=
  let st := nextToken line
  if st.tok = [] then .ok l
  else (parseDirective l st).bind fun r => if r.2.tok = [] then .ok r.1 else .fail

/-- The loop in `mdef_Read` (xlink/machinedefinition.c 586-590). -/
def readLines : Layout → List (List Char) → Outcome Layout
  | l, [] => .ok l
  | l, line :: lines => (parseLine l line).bind fun l => readLines l lines

/-- `mdef_Read` (xlink/machinedefinition.c 573-595) for a file that exists. -/
def read (lines : List (List Char)) : Outcome Layout :=
  (readLines {} lines).bind fun l => if l.formats = [] then .fail else .ok l

/-- What option `-a` sets up (xlink/main.c 476-488). The output format is not set. -/
def Layout.choice (l : Layout) : Choice := ⟨.ok ⟨l.pools, l.groups⟩, l.formats, none, l.header⟩

end Verif.Layout
