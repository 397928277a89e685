import Verif.Cpu.M6809.Reading
/-!
# The handlers put out the opcodes of the specification
-/
set_option linter.constructorNameAsVariable false

namespace Verif.Cpu.M6809

open Verif.Parse (Tok Toks Tree)
open Verif.Expr (Src FMath ASym Den BinOp u32 wrap)
open Verif.Cpu.X65 (EndOfLine ok_bind)

/-- The entry of an instruction. -/
def Mn.entry (m : Mn) : Entry := (table[m.ctorIdx]?).getD ⟨0, 0, .implied⟩

def Mn.all : List Mn := [
  .abx, .adca, .adcb, .adda, .addb, .addd, .anda, .andb, .andcc, .asl, .asla, .aslb, .asr, .asra, .asrb, .bra, .brn,
  .bhi, .bls, .bhs, .blo, .bne, .beq, .bvc, .bvs, .bpl, .bmi, .bge, .blt, .bgt, .ble, .bsr, .lbra, .lbrn, .lbhi, .lbls,
  .lbhs, .lblo, .lbne, .lbeq, .lbvc, .lbvs, .lbpl, .lbmi, .lbge, .lblt, .lbgt, .lble, .lbsr, .bita, .bitb, .clr, .clra,
  .clrb, .cmpa, .cmpb, .cmpd, .cmpx, .cmpy, .cmpu, .cmps, .com, .coma, .comb, .cwai, .daa, .dec, .deca, .decb, .eora,
  .eorb, .exg, .inc, .inca, .incb, .jmp, .jsr, .lda, .ldb, .ldd, .ldx, .ldy, .ldu, .lds, .leax, .leay, .leau, .leas,
  .lsr, .mul, .neg, .nega, .negb, .ora, .orb, .orcc, .pshs, .pshu, .puls, .pulu, .rol, .rola, .rolb, .ror, .rora,
  .rorb, .rti, .rts, .sbca, .sbcb, .sex, .sta, .stb, .std, .stx, .sty, .stu, .sts, .suba, .subb, .subd, .swi, .swi2,
  .swi3, .sync, .tfr, .tst, .tsta, .tstb, .nop]

theorem mem_all (m : Mn) : m ∈ Mn.all := by cases m <;> decide

/-- The modes with a post byte. -/
def postModes : List Nat :=
  [M.r5, M.inc1, M.dec1] ++ [M.inc2, M.dec2, M.r, M.ra, M.rb, M.rd, M.r8, M.r16, M.pc8, M.pc16].flatMap (fun k => [k, k ||| M.ind]) ++
  [M.extInd ||| M.ind]

/-- If there is an opcode for the format, certain modes are allowed, and the handler puts it out for the modes, followed by the
operand. -/
def okFmt (m : Mn) (f : Fmt) (allowed : List Nat) (calls : List (Nat × List Call)) : Bool :=
  match code m f with
  | none => true
  | some bs => allowed.contains m.entry.allowed && m.entry.handler != .regToReg &&
      calls.all fun c => (m.entry.handler.run m.entry.base c.1).2 == bs.map .const ++ c.2

/-- What is put out for the modes of a format. -/
def Fmt.calls : Fmt → List (Nat × List Call)
  | .inh => [(M.none, [])]
  | .imm8 => [(M.imm, [.e8])]
  | .imm16 => [(M.imm, [.e16])]
  | .dir => [(M.direct, [.low8])]
  | .ext => [(M.extended, [.e16])]
  | .idx => postModes.map fun k => (k, (emitIndexed k).2)
  | .rel8 => [(M.direct, [.rel8]), (M.extended, [.rel8])]
  | .rel16 => [(M.direct, [.rel16]), (M.extended, [.rel16])]
  | .list .u => [(M.listU, [.post])]
  | .list .s => [(M.listS, [.post])]
  | _ => []

/-- The modes that are allowed for an instruction with a format. -/
def Fmt.allowed : Fmt → List Nat
  | .inh => [M.none]
  | .imm8 => [M.p, M.imm]
  | .imm16 => [M.p]
  | .dir | .ext => [M.p, M.q]
  | .idx => [M.p, M.q, M.t]
  | .rel8 | .rel16 => [M.address]
  | .list .u => [M.imm ||| M.listU]
  | .list .s => [M.imm ||| M.listS]
  | _ => []

def formats : List Fmt := [.inh, .imm8, .imm16, .dir, .ext, .idx, .rel8, .rel16, .list .u, .list .s]

def okRow (m : Mn) : Bool :=
  table[m.num - Mn.abx.num]? == some m.entry && Nat.ble Mn.abx.num m.num && Nat.ble m.num Mn.nop.num &&
  formats.all (fun f => okFmt m f f.allowed f.calls) && takes m .dir == takes m .ext &&
  match code m .pair with
  | none => true
  | some bs => m.entry.allowed == M.none && m.entry.handler == .regToReg && bs == [m.entry.base]

theorem rows_ok : Mn.all.all okRow = true := by decide +kernel

theorem row_ok (m : Mn) : okRow m = true := List.all_eq_true.1 rows_ok m (mem_all m)

theorem entry_of (m : Mn) : table[m.num - Mn.abx.num]? = some m.entry ∧ Mn.abx.num ≤ m.num ∧ m.num ≤ Mn.nop.num := by
  have h := row_ok m
  unfold okRow at h
  simp only [Bool.and_eq_true] at h
  exact ⟨eq_of_beq h.1.1.1.1.1, Nat.le_of_ble_eq_true h.1.1.1.1.2, Nat.le_of_ble_eq_true h.1.1.1.2⟩

theorem dir_ext (m : Mn) : takes m .dir = takes m .ext := by
  have h := row_ok m
  unfold okRow at h
  simp only [Bool.and_eq_true] at h
  exact eq_of_beq h.1.2

/-- What the handlers do for a format. -/
theorem fmt_ok {m : Mn} {f : Fmt} {bs : List Nat} (hc : code m f = some bs) (hf : f ∈ formats) :
    m.entry.allowed ∈ f.allowed ∧ m.entry.handler ≠ .regToReg ∧
    ∀ c ∈ f.calls, (m.entry.handler.run m.entry.base c.1).2 = bs.map .const ++ c.2 := by
  have h := row_ok m
  unfold okRow at h
  simp only [Bool.and_eq_true] at h
  have h := List.all_eq_true.1 h.1.1.2 f hf
  unfold okFmt at h
  rw [hc] at h
  simp only [Bool.and_eq_true] at h
  refine ⟨List.contains_iff_mem.1 h.1.1, by simpa using h.1.2, fun c hm => ?_⟩
  exact eq_of_beq (List.all_eq_true.1 h.2 c hm)

theorem pair_ok {m : Mn} {bs : List Nat} (hc : code m .pair = some bs) :
    m.entry.allowed = M.none ∧ m.entry.handler = .regToReg ∧ bs = [m.entry.base] := by
  have h := row_ok m
  unfold okRow at h
  rw [hc] at h
  simp only [Bool.and_eq_true] at h
  exact ⟨eq_of_beq h.2.1.1, eq_of_beq h.2.1.2, eq_of_beq h.2.2⟩

/-! ### Opcodes -/

/-- The bytes are those of an opcode. -/
def isCode (e : Op × Fmt) : List Nat → Bool
  | [b] => b != 0x10 && b != 0x11 && Nat.blt b 256 && (page0[b]?).join == some e
  | [p, b] => Nat.blt b 256 && (p == 0x10 && (page1.find? (·.1 == b)).map (·.2) == some e ||
      p == 0x11 && (page2.find? (·.1 == b)).map (·.2) == some e)
  | _ => false

theorem opcodes_ok : opcodes.all (fun e => isCode e.2 e.1) = true := by decide +kernel

theorem code_isCode {m : Mn} {f : Fmt} {bs : List Nat} (h : code m f = some bs) : isCode (.mn m, f) bs = true := by
  unfold code at h
  obtain ⟨e, he, rfl⟩ := Option.map_eq_some_iff.1 h
  have h1 := List.all_eq_true.1 opcodes_ok e (List.mem_of_find?_eq_some he)
  have h2 := List.find?_some he
  rw [eq_of_beq h2] at h1
  exact h1

theorem isCode_opcode {e : Op × Fmt} {bs : List Nat} (h : isCode e bs = true) (rest : List Nat) : opcode (bs ++ rest) = some (e, rest) := by
  unfold isCode at h
  split at h
  · rename_i b
    simp only [Bool.and_eq_true, bne_iff_ne, ne_eq] at h
    show opcode (b :: rest) = _
    unfold opcode
    split
    · rename_i e; cases e; exact absurd rfl h.1.1.1
    · rename_i e; cases e; exact absurd rfl h.1.1.2
    · rename_i e; cases e; rw [eq_of_beq h.2]; rfl
    · rename_i e; cases e
  · rename_i p b
    simp only [Bool.and_eq_true, Bool.or_eq_true] at h
    rcases h.2 with ⟨hp, h⟩ | ⟨hp, h⟩
    · rw [eq_of_beq hp]
      show Option.map (fun x => (x.2, rest)) (page1.find? (·.1 == b)) = _
      obtain ⟨x, hx, rfl⟩ := Option.map_eq_some_iff.1 (eq_of_beq h)
      rw [hx]; rfl
    · rw [eq_of_beq hp]
      show Option.map (fun x => (x.2, rest)) (page2.find? (·.1 == b)) = _
      obtain ⟨x, hx, rfl⟩ := Option.map_eq_some_iff.1 (eq_of_beq h)
      rw [hx]; rfl
  · cases h

theorem isCode_bytes {e : Op × Fmt} {bs : List Nat} (h : isCode e bs = true) : ∀ b ∈ bs, b < 256 := by
  unfold isCode at h
  split at h
  · simp only [Bool.and_eq_true] at h
    intro b hb
    rw [List.mem_singleton.1 hb]
    exact Nat.le_of_ble_eq_true h.1.2
  · simp only [Bool.and_eq_true, Bool.or_eq_true] at h
    intro b hb
    rcases List.mem_cons.1 hb with rfl | hb
    · rcases h.2 with ⟨hp, _⟩ | ⟨hp, _⟩ <;> (rw [eq_of_beq hp]; decide)
    · rw [List.mem_singleton.1 hb]
      exact Nat.le_of_ble_eq_true h.1
  · cases h

/-- Opcode and operand. -/
theorem decode_code {m : Mn} {f : Fmt} {bs : List Nat} (h : code m f = some bs) (pc : Int) (ob : List Nat) :
    decode pc (bs ++ ob) = (operand (next m f pc ob.length) f ob).map (⟨.mn m, ·⟩) := by
  unfold decode next
  rw [isCode_opcode (code_isCode h), h]
  simp only [Option.bind_some, Option.getD_some, List.length_append, Int.natCast_add]
  rw [Int.add_assoc]

end Verif.Cpu.M6809
