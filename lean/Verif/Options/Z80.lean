import Verif.Options.Limits
import Verif.Cpu.Z80.Model
/-!
# C64: the options of the Z80 and of the Game Boy

`z80_SetDefaultOptions` does not set whether undocumented instructions are allowed.
-/
namespace Verif.Options

open Verif.Cpu

/-- `z80_ParseOption` (xasm/z80/z80_options.c 54-104) with the characters for graphics; the message is `WARN_MACHINE_UNKNOWN_OPTION`. -/
def z80Parse (t : List Char) (o : Z80.Opts × List Char) : Z80.Opts × List Char × List Nat :=
  match t with
  | [] => (o.1, o.2, [])
  | ['g', a, b, c, d] => (o.1, [a, b, c, d], [])
  | ['c', 'g'] => ({o.1 with cpu := .gb}, o.2, [])
  | ['c', 'z'] => ({o.1 with cpu := .z80}, o.2, [])
  | ['s', c] => ({o.1 with synth := c = '1'}, o.2, [])
  | ['u', c] => ({o.1 with undoc := c = '1'}, o.2, [])
  | _ => (o.1, o.2, [7])

/-- `z80_OptionsUpdated` (xasm/z80/z80_options.c 51-52) does nothing; there are no directives that set options. -/
def z80 : Cfg Z80.Opts Unit Empty := ⟨fun _ t o => z80Parse t o, fun o e => .ok (o, e), fun d _ => d.elim⟩

/-- `z80_SetDefaultOptions` (xasm/z80/z80_options.c 45-49) and `opt_Open` (xasm/motor/options.c 186-206) with the configuration in
xasm/z80/z80_main.c 31-39. The memory is that of `mem_Alloc` (util, which is not in the checkout); what is in it stays where nothing is
set. -/
def z80Start (memory : Bool) : State Z80.Opts Unit :=
  ⟨⟨false, ['0', '1'], ['0', '1', '2', '3'], 0xFF, 1, [], false, ⟨.z80, false, memory⟩⟩, [], [], (), []⟩

/-- **C64 for the Z80.** The options set what the text of `z80_PrintOptions` (xasm/z80/z80_options.c 106-119) and doc/CpuZ80.md say, and
nothing else. -/
theorem C64_z80_letters (lib : Lib) (s : State Z80.Opts Unit) :
    (∀ a b c d, parse z80 lib ['m', 'g', a, b, c, d] s = .ok {s with cur := {s.cur with pixels := [a, b, c, d]}}) ∧
    parse z80 lib ['m', 'c', 'g'] s = .ok {s with cur := {s.cur with machine := {s.cur.machine with cpu := .gb}}} ∧
    parse z80 lib ['m', 'c', 'z'] s = .ok {s with cur := {s.cur with machine := {s.cur.machine with cpu := .z80}}} ∧
    (∀ p : Char × Bool, p ∈ [('0', false), ('1', true)] →
      parse z80 lib ['m', 's', p.1] s = .ok {s with cur := {s.cur with machine := {s.cur.machine with synth := p.2}}} ∧
      parse z80 lib ['m', 'u', p.1] s = .ok {s with cur := {s.cur with machine := {s.cur.machine with undoc := p.2}}}) := by
  refine ⟨fun _ _ _ _ => rfl, rfl, rfl, fun p hp => ?_⟩
  simp only [List.mem_cons, List.not_mem_nil, or_false] at hp
  rcases hp with rfl | rfl <;> exact ⟨rfl, rfl⟩

/-- A text of the wrong length, or that begins with another letter, gives a warning, unless it is switched off, and sets nothing. -/
theorem C64_z80_refused (lib : Lib) (s : State Z80.Opts Unit) (c : Char) (t : List Char)
    (h : c ∉ ['g', 'c', 's', 'u'] ∨ t.length ≠ if c = 'g' then 4 else 1) :
    parse z80 lib ('m' :: c :: t) s = .ok (warn 7 s) := by
  have key : z80Parse (c :: t) (s.cur.machine, s.cur.pixels) = (s.cur.machine, s.cur.pixels, [7]) := by
    unfold z80Parse
    split
    · rename_i e; cases e
    · rename_i e; cases e; simp at h
    · rename_i e; cases e; simp at h
    · rename_i e; cases e; simp at h
    · rename_i e; cases e; simp at h
    · rename_i e; cases e; simp at h
    · rfl
  show Outcome.ok _ = _
  simp only [z80, key]
  exact congrArg Outcome.ok (given_warn s)

/-- **C64 for the Z80.** `POPO` restores the characters for graphics and the options of the processor. -/
theorem C64_z80 (lib : Lib) {ds : List (Dir Empty)} (h : Balanced ds) {s s' : State Z80.Opts Unit}
    (he : run z80 lib (.push :: ds ++ [.pop]) s = .ok s') : s'.cur = s.cur ∧ s'.saved = s.saved :=
  C64_others (fun _ _ => ⟨_, rfl⟩) lib h he

/-- **C64, negation.** Undocumented instructions are to be disabled if no option is given, but whether they are is what the memory
happens to hold: `SLL B` is assembled or refused. -/
theorem C64_z80_default (C : Ctx) : ∃ s s', run z80 lib0 [] (z80Start true) = .ok s ∧ run z80 lib0 [] (z80Start false) = .ok s' ∧
    (∃ is, Z80.instr C s.cur.machine [Z80.tok "SLL", Z80.tok "B"] = .ok (some (is, []))) ∧
    Z80.instr C s'.cur.machine [Z80.tok "SLL", Z80.tok "B"] = .fail :=
  ⟨_, _, rfl, rfl, ⟨[.const 1 0xCB, .const 1 0x30], rfl⟩, rfl⟩

/-- After `OPT "mu0"` or `OPT "mu1"` the memory does not matter. -/
theorem C64_z80_set (lib : Lib) (b : Bool) (m m' : Bool) :
    run z80 lib [.opt [['m', 'u', if b then '1' else '0']]] (z80Start m) = run z80 lib [.opt [['m', 'u', if b then '1' else '0']]] (z80Start m') := by
  cases b <;> rfl

/-- The characters for graphics between `PUSHO` and `POPO`. -/
example : ∃ s s', run z80 lib0 [.push, .opt ["mgabcd".toList, "mcg".toList]] (z80Start false) = .ok s ∧ s.cur.pixels = "abcd".toList ∧
    s.cur.machine.cpu = .gb ∧ run z80 lib0 [.push, .opt ["mgabcd".toList, "mcg".toList], .pop] (z80Start false) = .ok s' ∧
    s'.cur.pixels = "0123".toList ∧ s'.cur.machine.cpu = .z80 := ⟨_, _, rfl, rfl, rfl, rfl, rfl, rfl⟩

end Verif.Options
