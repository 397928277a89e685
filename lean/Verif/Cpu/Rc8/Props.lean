import Verif.Cpu.Rc8.Lines
/-!
# C63: lines of the RC8 do what they say
-/
set_option linter.constructorNameAsVariable false

namespace Verif.Cpu.Rc8

open Verif.Parse (Tok Toks Tree)
open Verif.Expr (Src FMath ASym Den BinOp I32 toI32 wrap)
open Verif.Cpu.X65 (ok_bind EndOfLine bytesAt)

variable (C : Ctx)

/-- How long strings may be that stand for numbers. -/
def strings : Mn → Nat
  | .j | .jal | .dj => 1
  | _ => 2

theorem goods {m : Mn} {os : List Opnd} {f : Form Tree} (h : form m os = some f) (hg : ∀ o ∈ os, o.Good (strings m)) : Goods (entry m) os := by
  rcases os with _ | ⟨a, _ | ⟨b, os⟩⟩
  · trivial
  · have ha := hg a (by simp)
    have : m ≠ .dj := by
      intro e
      subst e
      cases a <;> cases h
    rw [show strings m = maxOf (entry m).first from by cases m <;> first | exact absurd rfl this | decide] at ha
    exact ha
  · have ha := hg a (by simp)
    have hb := hg b (by simp)
    by_cases hm : m = .dj
    · subst hm
      refine ⟨?_, hb⟩
      cases a with
      | r8 r => trivial
      | _ => cases os <;> cases b <;> cases h
    · have hj : m ≠ .j ∧ m ≠ .jal := by
        constructor <;> (intro e; subst e; cases a <;> no_form h)
      obtain ⟨h1, h2⟩ := hj
      have hs : strings m = maxOf (entry m).first ∧ strings m = maxOf (entry m).second := by
        cases m <;> first | exact absurd rfl hm | exact absurd rfl h1 | exact absurd rfl h2 | decide
      exact ⟨hs.1 ▸ ha, hs.2 ▸ hb⟩

/-- A jump with a condition is the instruction of the processor. -/
theorem Meets.jump {c : Cond} {v pc : Int} {bs : List Nat} (h : Meets none (.jc (some c) v) pc bs) : Meets (some c) (.jc none v) pc bs := by
  intro cpu s hl
  have := h cpu s hl
  show Runs cpu _ (if cpu.holds c (s.reg .f) = true then _ else _)
  have e : effect cpu none (.jc (some c) v) (wordOf (pc + bs.length)) s =
    ((if cpu.holds c (s.reg .f) = true then some (wordOf v) else none).getD (wordOf (pc + bs.length)), s) := rfl
  rw [e] at this
  by_cases hc : cpu.holds c (s.reg .f) = true
  · rw [if_pos hc] at this ⊢; exact this
  · rw [if_neg hc] at this ⊢; exact this

theorem sem_jc (k : Bool) (c : Option Cond) (t : Tree) :
    Sem C (.jc c t) k [byte (0x90 + ccOf c), .expr 1 (checkRange (.pcRel 0 (C.src t)) (-128) 127)] := by
  rcases c with _ | c
  · exact sem_jump C k 0x9A (by decide) rfl (fun _ _ => rfl) (fun _ _ => rfl) (fun _ _ _ _ _ _ => rfl)
      (fun _ _ _ _ _ h => by simp only [Form.map, goto, h])
  · exact sem_jump C k (0x90 + c.n) (by cases c <;> decide) rfl (fun _ _ => rfl) (fun a n => decode_cond c a n) (fun _ _ _ _ _ _ => rfl)
      (fun _ _ _ _ _ h => by simp only [Form.map, goto, h])

/-- `J` to an address. -/
theorem line_jump (target : Nat) (c : Option Cond) (t : Tree) (k : Bool) :
    Line C target c (.jc none t) k false [byte (0x90 + ccOf c), .expr 1 (checkRange (.pcRel 0 (C.src t)) (-128) 127)] := by
  rcases c with _ | c
  · exact (sem_jc C k none t).line C target
  · have h := (sem_jc C k (some c) t).line C target
    refine ⟨h.size, fun fm now ρ hS h0 h1 hl g hg hf => ?_, fun fm now ρ hS h0 h1 hl hg => ?_⟩
    · obtain ⟨v, hv, rfl⟩ := Option.map_eq_some_iff.1 (show (valOf C fm now ρ t).map (fun v => Form.jc none v) = some g from hg)
      obtain ⟨bs, hb, hm⟩ := h.good fm now ρ hS h0 h1 hl (.jc (some c) v)
        (show (valOf C fm now ρ t).map (fun v => Form.jc (some c) v) = _ by rw [hv]; rfl) hf
      exact ⟨bs, hb, hm.jump⟩
    · refine h.bad fm now ρ hS h0 h1 hl fun g e => ?_
      obtain ⟨v, hv, rfl⟩ := Option.map_eq_some_iff.1 (show (valOf C fm now ρ t).map (fun v => Form.jc (some c) v) = some g from e)
      exact hg (.jc none v) (show (valOf C fm now ρ t).map (fun v => Form.jc none v) = _ by rw [hv]; rfl)

/-- `J` to the address in a register. -/
theorem line_jr (target : Nat) (c : Cond) (r : R16) (k : Bool) :
    Line C target (some c) (.jr r) k false [byte (0x90 + c.inv.n), byte 2, byte (0x3C ||| r.n)] := by
  refine ⟨fun i hi => ?_, fun fm now ρ hS h0 h1 hl g hg hf => ?_, fun fm now ρ hS h0 h1 hl hg => ?_⟩
  · simp only [List.mem_cons, List.not_mem_nil, or_false] at hi
    rcases hi with rfl | rfl | rfl <;> rfl
  · cases hg
    refine ⟨[0x90 + c.inv.n, 2, 0x3C ||| r.n], bytes_only fm now [0x90 + c.inv.n, 2, 0x3C ||| r.n] ρ ?_, ?_⟩
    · cases c <;> cases r <;> decide
    · exact Meets.over (bs := [0x3C ||| r.n]) (by simp) (Meets.one (by cases r <;> decide) _ fun _ => by cases r <;> rfl)
  · cases hg _ rfl

theorem run_jr (cc : Nat) (r : R16) : jump 0x3C cc ⟨0x1000 <<< r.ctorIdx, r.ctorIdx, none⟩ noMode =
    .ok ((if cc ≠ always then [byte (0x90 + invert cc), byte 2] else []) ++ [byte (0x3C ||| r.n)]) := by
  unfold jump
  cases r <;> (rw [if_neg (by decide), if_pos (by decide)]; rfl)

theorem finish_jr (target : Nat) (c : Option Cond) (r : R16) (rest : Toks) : finish C target .j c [.ptr r .stay] rest =
    .ok (some ⟨(if ccOf c ≠ always then [byte (0x90 + invert (ccOf c)), byte 2] else []) ++ [byte (0x3C ||| r.n)], false, rest⟩) := by
  show Outcome.bind (jump 0x3C (ccOf c) ⟨0x1000 <<< r.ctorIdx, r.ctorIdx, none⟩ noMode) _ = _
  rw [run_jr, ok_bind]
  rfl

/-- Which lines have a label behind them. -/
def labelled (m : Mn) (c : Option Cond) : Bool := c.isSome && m != .j

/-- C63. Every line that has a meaning and that is not one of those that are assembled wrongly is accepted, with its condition.
Wherever its bytes are put, executing them does what the line says, and nothing if the condition does not hold; or the value cannot be
in the instruction, and there are no bytes. The label that the assembler makes for a condition stands behind the bytes. -/
theorem C63_lines_of_the_RC8 (target : Nat) (m : Mn) (c : Option Cond) (os : List Opnd) (f : Form Tree) (rest : Toks)
    (h : form m os = some f) (hw : f.wrong = false) (hg : ∀ o ∈ os, o.Good (strings m)) (he : EndOfLine rest) :
    ∃ items, instr C target (line m c os ++ rest) = .ok (some ⟨items, labelled m c, rest⟩) ∧
      Line C target c f (knows C m os) (labelled m c) items := by
  by_cases hj : m = .j
  · subst hj
    have hl : labelled .j c = false := by cases c <;> rfl
    rw [hl]
    rcases os with _ | ⟨a, _ | ⟨b, os⟩⟩
    · cases h
    · cases a with
      | val t =>
        have hg' := goods h hg
        cases h
        refine ⟨_, ?_, line_jump C target c t _⟩
        rw [instr_reads C target .j c [.val t] hg' ⟨allowed_addr C _ t (by all_rfl), by all_rfl⟩ he]
        rfl
      | ptr r v =>
        cases v <;> cases h
        have ha : Allowed C (entry .j) [.ptr r .stay] := ⟨allowed_fixed C _ rfl (by cases r <;> all_rfl), by all_rfl⟩
        rcases c with _ | c
        · refine ⟨_, ?_, (sem_jr C _ r).line C target⟩
          rw [instr_reads C target .j none [.ptr r .stay] trivial ha he, finish_jr]
          rfl
        · refine ⟨_, ?_, line_jr C target c r _⟩
          rw [instr_reads C target .j (some c) [.ptr r .stay] trivial ha he, finish_jr]
          cases c <;> rfl
      | _ => no_form h
    · cases a <;> no_form h
  · obtain ⟨hp, ha, items, hr, hs⟩ := fits C m hj os f h hw
    rw [instr_reads C target m c os (goods h hg) ha he]
    unfold finish
    rw [hp, hr]
    rcases c with _ | c
    · exact ⟨items, rfl, hs.line C target⟩
    · have hl : labelled m (some c) = true := by
        show (true && m != .j) = true
        simpa using hj
      have hn : (!false && ccOf (some c) != always) = true := by cases c <;> rfl
      rw [hn, hl, if_pos rfl]
      refine ⟨_, ?_, hs.over C target c⟩
      show Outcome.bind (jumpRel (0x90 + invert c.n) (some (.sym target))) _ = _
      rw [inv_n]
      rfl

end Verif.Cpu.Rc8
