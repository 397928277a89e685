import Verif.Section.Props
/-!
# Sections: what does not work as documented

Concrete programs. The environment is that of a machine with 8 bit words unless said otherwise.
-/
namespace Verif.Section
open Spec (Cell Area World Result)

/-- 6502 and others. -/
def cfg8 : Config := ⟨1, false⟩
/-- The same with banks. -/
def cfg8b : Config := ⟨1, true⟩
/-- dcpu-16. -/
def cfg16 : Config := ⟨2, false⟩
def code : Group := ⟨1, false⟩
def bss : Group := ⟨2, true⟩
/-- Little endian, in line `n` of the source. -/
def env (n : Nat) : Env := ⟨false, 0xEA, ⟨0, n⟩⟩
def envBig (n : Nat) : Env := ⟨true, 0, ⟨0, n⟩⟩
/-- Patches of the examples hold text. -/
abbrev Prog := List (Env × Op String)
def noRange (_ : Size) (e : String) : String := e

/-- What the sections of a program contain, if it has no errors. -/
def contents (cfg : Config) (p : Prog) : Option (List (String × Bytes × Nat)) :=
  match run cfg p {} with
  | .ok s => if s.errors = 0 then some (s.sections.map fun x => (x.name, x.data.take x.used, x.pc)) else none
  | _ => none

/-- The contents after a program and a further directive, and the number of errors. -/
def after (cfg : Config) (p : Prog) (f : State String → Outcome (State String)) : Option (Nat × List (Nat × Bytes)) :=
  match (run cfg p {}).bind f with
  | .ok s => some (s.errors, s.sections.map fun x => (x.used, x.data.take x.used))
  | _ => none

/-- `SECTION "A",CODE`, two lines of data, another section, and back. -/
def sample : Prog :=
  [(env 1, .section "A" code none), (env 2, .const .one 7), (env 3, .const .two 0x1234), (env 4, .section "B" code none),
    (env 5, .expr .two (.later "label")), (env 6, .section "A" code none), (env 7, .align 4),
    (env 8, .expr .four (.known (-2)))]

/-- The meaning of the sample is defined. -/
example : ∃ w, Spec.run cfg8 sample {} = .good w ∧ w.areas.length = 2 := by
  refine ⟨_, rfl, ?_⟩
  decide +kernel

theorem sample_contents : contents cfg8 sample =
    some [("A", [7, 0x34, 0x12, 0xEA, 0xFE, 0xFF, 0xFF, 0xFF], 8), ("B", [0, 0], 2)] := by decide +kernel

/-- A mistake: data in a section that can not have any. -/
example : Spec.run cfg8 [(env 1, .section "V" bss none), (env 2, .const .one (α := String) 7)] {} = .bad := by rfl

/-- `DB "ab",1,,-1` and `DW "ab"`. -/
theorem C29_data_example :
    after cfg8 [(env 1, .section "A" code none)] (fun s =>
      (dataItems cfg8 (env 2) noRange .one [.text [97, 98], .const 1, .nothing, .const (-1)] s).bind fun s =>
        dataItems cfg8 (env 3) noRange .two [.text [97, 98]] s) =
      some (0, [(7, [97, 98, 1, 0xEA, 0xFF, 98, 97])]) := by decide +kernel

/-! ## Data -/

/-- The documentation reserves a word for a variable with `DW` and no operand (doc/OrganisingCode.md 67-73); that reports an
error, as does `DL`. `DB` works. -/
theorem C29_reserve_word (cfg : Config) (e : Env) (rng : Size → String → String) (s s' : State String)
    (h : dataItems cfg e rng .two [.nothing] s = .ok s') : s.errors < s'.errors := by
  rw [dataItems] at h
  obtain ⟨r, h1, h2⟩ := bind_ok h
  simp only [dataItem, List.isEmpty_nil, and_true] at h1
  rw [if_pos (by decide)] at h1
  obtain ⟨s1, h3, h4⟩ := bind_ok h1
  cases h4
  simp only [if_true, dataItems] at h2
  cases h2
  exact skipBytes_errors h3

example : after cfg8 [(env 1, .section "V" bss none)] (dataItems cfg8 (env 2) noRange .one [.nothing]) = some (0, [(1, [])]) := by
  decide +kernel

/-- An empty string is a byte. -/
theorem C29_empty_string :
    after cfg8 [(env 1, .section "A" code none)] (dataItems cfg8 (env 2) noRange .one [.text []]) = some (0, [(1, [0])]) := by
  decide +kernel

/-- On a big endian machine a floating point number with 64 bits is stored with its halves exchanged: 1.0 is
$3FF0000000000000. -/
theorem C29_double_halves :
    after cfg8 [(envBig 1, .section "A" code none)] (outputDouble cfg8 (envBig 2) 0x3FF0000000000000) =
      some (0, [(8, [0, 0, 0, 0, 0x3F, 0xF0, 0, 0])]) ∧
    Spec.digits true 8 0x3FF0000000000000 = [0x3F, 0xF0, 0, 0, 0, 0, 0, 0] := by decide +kernel

theorem double_digits {cfg : Config} {e : Env} (he : e.big = false) (hw : cfg.wordSize ∣ Size.four.bytes) (v : Nat) (w : World String) :
    (match Spec.step cfg e (.const .four (v % 2 ^ 32)) w with
      | .good w => Spec.step cfg e (.const .four (v / 2 ^ 32 % 2 ^ 32)) w
      | .bad => .bad
      | .outside => .outside) = Spec.emit e.pos (Spec.digits e.big 8 v) [] w := by
  have hd : Spec.digits e.big 8 v =
      Spec.digits e.big Size.four.bytes (v % 2 ^ 32) ++ Spec.digits e.big Size.four.bytes (v / 2 ^ 32 % 2 ^ 32) := by
    rw [he]
    simp only [Size.bytes, Spec.digits, List.range, List.range.loop, List.map, Bool.false_eq_true, if_false, List.cons_append,
      List.nil_append, List.cons.injEq, and_true]
    refine ⟨?_, ?_, ?_, ?_, ?_, ?_, ?_, ?_⟩ <;> congr 1 <;> omega
  simp only [Spec.step, if_pos hw]
  rw [hd]
  cases h : Spec.emit e.pos (Spec.digits e.big Size.four.bytes (v % 2 ^ 32)) [] w with
  | good w1 =>
    exact emit_append h
  | bad => exact (emit_bad_append h).symm
  | outside => exact (emit_outside h).symm

theorem run_split {cfg : Config} : ∀ (a b : Prog) (s : State String),
    run cfg (a ++ b) s = (run cfg a s).bind fun s => run cfg b s
  | [], _, _ => rfl
  | (e, op) :: a, b, s => by
    simp only [List.cons_append, run]
    cases step cfg e op s with
    | ok s1 => exact run_split a b s1
    | fail => rfl
    | ub => rfl

/-- A little endian machine stores it as it should: its eight bytes come behind what is in the section. -/
theorem C29_double {cfg : Config} (hv : cfg.Valid) {e : Env} (he : e.big = false) (hw : cfg.wordSize ∣ Size.four.bytes) (v : Nat)
    {ops : Prog} {w w' : World String} (h : Spec.run cfg ops {} = .good w)
    (hd : Spec.emit e.pos (Spec.digits false 8 v) [] w = .good w') :
    ∃ s s', run cfg ops {} = .ok s ∧ outputDouble cfg e v s = .ok s' ∧ s'.errors = 0 ∧
      ∀ (i : Nat) (x : Sect String) (y : Area String), s'.sections[i]? = some x → w'.areas[i]? = some y → Holds cfg x y := by
  have h2 := double_digits he hw v w
  rw [he] at h2
  rw [hd] at h2
  have h3 : Spec.run cfg (ops ++ [(e, .const .four (v % 2 ^ 32)), (e, .const .four (v / 2 ^ 32 % 2 ^ 32))]) {} = .good w' := by
    rw [spec_run_append, h]
    simp only [Spec.run]
    cases ha : Spec.step cfg e (.const .four (v % 2 ^ 32)) w with
    | good w1 =>
      rw [ha] at h2
      simp only at h2 ⊢
      rw [h2]
    | bad => rw [ha] at h2; cases h2
    | outside => rw [ha] at h2; cases h2
  obtain ⟨s', h4, h5, _, _, _, _, h6⟩ := C29_history hv h3
  obtain ⟨s, h7, _⟩ := C29_history hv h
  refine ⟨s, s', h7, ?_, h5, h6⟩
  rw [run_split, h7] at h4
  simp only [Outcome.bind, run, step] at h4
  simp only [outputDouble, Outcome.bind]
  revert h4
  cases outputConst cfg e .four (v % W32) s with
  | ok s1 =>
    intro h4
    simp only at h4 ⊢
    revert h4
    cases outputConst cfg e .four (v / W32 % W32) s1 with
    | ok s2 => exact id
    | fail => exact id
    | ub => exact id
  | fail => exact id
  | ub => exact id

/-- The hypotheses hold for 1.0 on an 8 bit machine. -/
example : ∃ w w' : World String, Spec.run cfg8 [(env 1, .section "A" code none)] {} = .good w ∧
    Spec.emit (env 2).pos (Spec.digits false 8 0x3FF0000000000000) [] w = .good w' ∧
    w'.areas.map (fun y => y.cells.map fun c => c.value) = [[0, 0, 0, 0, 0, 0, 0xF0, 0x3F]] := by
  refine ⟨_, _, rfl, rfl, ?_⟩
  decide +kernel

/-- The number of bytes that `DSL` reserves is kept in 32 bits: 2^30 longs are nothing at all, without an error. -/
theorem C29_space_wraps (cfg : Config) (e : Env) (s : State String) : defineSpace cfg e 4 (2 ^ 30) s = .ok s := by
  simp [defineSpace, skipBytes]

/-- `CNOP 0,0` divides by zero, and `EVEN` without a section dereferences a null pointer. -/
theorem C29_cnop_zero (cfg : Config) (e : Env) :
    (∀ (s : State String) (x : Sect String), s.sect = some x → cnop cfg e 0 0 s = .ub) ∧
    ∀ n : Nat, alignBytes cfg e n ({} : State String) = .ub := by
  constructor
  · intro s x hs
    have : alignBytes cfg e 0 s = .ub := by
      simp only [alignBytes, hs]
      split <;> rfl
    simp only [cnop]
    rw [if_pos (by decide), if_pos (by decide)]
    show (alignBytes cfg e 0 s).bind _ = _
    rw [this]
    rfl
  · intro n
    simp only [alignBytes]
    split <;> rfl

/-- With 16 bit words an odd file puts later labels one word too low for the byte they stand for: three bytes count as one
word. -/
theorem C29_odd_file : contents cfg16 [(env 1, .section "A" code none), (env 2, .binary [1, 2, 3]), (env 3, .const .two 5)] =
    some [("A", [1, 2, 3, 5, 0], 2)] := by decide +kernel

/-! ## Sections -/

/-- A comma at the end of a `SECTION` directive makes it have no effect, without an error: what follows goes to the section
that was selected before. -/
theorem C29_section_comma (cfg : Config) (name : String) (g : Group) (address : Option Nat) (s : State String) :
    sectionDirective cfg name g address [.nothing] s = .ok s := by
  simp [sectionDirective, attributes]

/-- So does `BANK` without a number on a machine without banks. -/
theorem C29_section_bank (name : String) (g : Group) (address : Option Nat) (s : State String) :
    sectionDirective cfg8 name g address [.bank none] s = .ok s := by
  simp [sectionDirective, attributes, cfg8]

/-- The highest address is taken for no address. -/
theorem C29_section_top (cfg : Config) (name : String) (g : Group) (s : State String) :
    sectionDirective cfg name g (some (2 ^ 32 - 1)) [] s = sectionDirective cfg name g none [] s := by
  simp [sectionDirective, attributes, bracketed]

/-- `CODE[$1000],ALIGN[0]` divides by zero. -/
theorem C29_section_align_zero (name : String) (g : Group) (s : State String) :
    sectionDirective cfg8 name g (some 0x1000) [.align (some 0)] s = .ub := by
  simp [sectionDirective, attributes, bracketed]

/-- `SECTION "name"` selects the section as intended, but always reports an error. -/
theorem C29_section_name (name : String) (s : State String) : s.errors < (sectionName name s).errors := by
  unfold sectionName switchName
  split
  · simp [State.error]
  · simp only [State.error]
    omega

/-- A section that was declared with attributes can not be selected again in the same way after `ORG`. -/
theorem C29_section_org :
    after cfg8 [(env 1, .section "A" code (some ⟨{ loadFixed := true }, 0x2000, U32MAX, U32MAX, U32MAX⟩)), (env 2, .org 0x1000)]
      (step cfg8 (env 3) (.section "A" code (some ⟨{ loadFixed := true }, 0x2000, U32MAX, U32MAX, U32MAX⟩))) =
      some (1, [(0, [])]) := by decide +kernel

/-! ## Labels -/

/-- The example of the documentation (doc/OrganisingCode.md 114-126): labels are $2000, $2001 and $1000. -/
def orgSample : Prog :=
  [(env 1, .section "Example" code (some ⟨{ loadFixed := true }, 0x2000, U32MAX, U32MAX, U32MAX⟩)), (env 2, .const .one 0),
    (env 3, .org 0x1000)]

def labelAfter (cfg : Config) (p : Prog) : Option Label :=
  match run cfg p {} with
  | .ok s => label s
  | _ => none

theorem C47_documented : labelAfter cfg8 (orgSample.take 1) = some (.constant 0x2000) ∧
    labelAfter cfg8 (orgSample.take 2) = some (.constant 0x2001) ∧
    labelAfter cfg8 orgSample = some (.constant 0x1000) := by decide +kernel

/-- The hypotheses of `C47_label` hold for it. -/
example : ∃ w y, Spec.run cfg8 orgSample {} = .good w ∧ w.area = some y ∧ y.attributes.bank = none ∧
    y.attributes.address = some 0x2000 ∧ Spec.Area.address 1 y 0x2000 = 0x1000 := by
  refine ⟨_, _, rfl, rfl, ?_⟩
  decide +kernel

/-- In a section with a bank `ORG` has no effect on labels: the label is an offset in the section, not $1000. -/
theorem C47_org_banked :
    labelAfter cfg8b [(env 1, .section "A" code (some ⟨{ bankFixed := true }, U32MAX, 3, U32MAX, U32MAX⟩)),
      (env 2, .org 0x1000)] = some (.inside 0 0) ∧
    ∀ (w : World String) (y : Area String),
      Spec.run cfg8b [(env 1, .section "A" code (some ⟨{ bankFixed := true }, U32MAX, 3, U32MAX, U32MAX⟩)),
        (env 2, .org 0x1000)] {} = .good w → w.area = some y → ∀ placed, Spec.Area.address 1 y placed = 0x1000 := by
  constructor
  · decide +kernel
  · intro w y hw hy placed
    cases hw
    cases hy
    rfl

end Verif.Section
