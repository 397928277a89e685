import Verif.Options.Limits
import Verif.Cpu.Dcpu.Model
/-!
# C64: the options of the DCPU-16, of MIPS, CHIP-8 and RC8

`x10c_SetDefaults` does not set whether addressing modes are optimised.
-/
namespace Verif.Options

open Verif.Cpu

/-- An option of one processor: a letter, and a character that selects a value. All others give `WARN_MACHINE_UNKNOWN_OPTION`. -/
def choose {M : Type} (letter : Char) (values : List (Char × M)) (t : List Char) (o : M) : M × List Nat :=
  match t with
  | [] => (o, [])
  | [l, c] =>
    if l = letter then
      match values.lookup c with
      | some v => (v, [])
      | none => (o, [7])
    else (o, [7])
  | _ => (o, [7])

/-- The functions of the three processors and `x10c_OptionsUpdated`, `mips_OptionsUpdated` and `schip_OptionsUpdated`
(xasm/dcpu-16/dcpu16_options.c 46-47, xasm/mips/mips_options.c 46-47, xasm/schip/schip_options.c 46-47), which do nothing. -/
def simple {M : Type} (letter : Char) (values : List (Char × M)) : Cfg M Unit Empty :=
  ⟨fun _ t o => let r := choose letter values t o.1; (r.1, o.2, r.2), fun o e => .ok (o, e), fun d _ => d.elim⟩

/-- `x10c_ParseOption` (xasm/dcpu-16/dcpu16_options.c 49-75). -/
def dcpu : Cfg Bool Unit Empty := simple 'o' [('0', false), ('1', true)]

/-- `mips_ParseOption` (xasm/mips/mips_options.c 49-76), with the bits in xasm/mips/mips_options.h 22-24. -/
def mips : Cfg Nat Unit Empty := simple 'c' [('0', 1), ('1', 2)]

/-- `schip_ParseOption` (xasm/schip/schip_options.c 49-74), with the bits in xasm/schip/schip_options.h 25-28. -/
def schip : Cfg Nat Unit Empty := simple 'c' [('0', 1), ('1', 2)]

/-- `rc8_ParseOption` (xasm/rc8/rc8_options.c 48-55): there are no options. The options are whether instructions may be synthesized, and
whether this may have side effects. -/
def rc8 : Cfg (Bool × Bool) Unit Empty :=
  ⟨fun _ t o => (o.1, o.2, if t = [] then [] else [7]), fun o e => .ok (o, e), fun d _ => d.elim⟩

/-- `opt_Open` (xasm/motor/options.c 186-206) with the endianness and alignment of a configuration. -/
def open0 {M : Type} (big : Bool) (align : Int) (o : M) : State M Unit :=
  ⟨⟨big, ['0', '1'], ['0', '1', '2', '3'], 0xFF, align, [], false, o⟩, [], [], (), []⟩

/-- `x10c_SetDefaults` (xasm/dcpu-16/dcpu16_options.c 38-39) sets nothing, so that the memory of `mem_Alloc` counts (util, which is not in
the checkout); the configuration is in xasm/dcpu-16/dcpu16_main.c 31-40. -/
def dcpuStart (memory : Bool) : State Bool Unit := open0 true 2 memory

/-- `mips_SetDefaultOptions` (xasm/mips/mips_options.c 41-44) and the configuration in xasm/mips/mips_main.c 31-40. -/
def mipsStart : State Nat Unit := open0 false 8 2

/-- `schip_SetDefaultOptions` (xasm/schip/schip_options.c 41-44) and the configuration in xasm/schip/schip_main.c 31-40. -/
def schipStart : State Nat Unit := open0 true 1 2

/-- **C64.** The options of the DCPU-16, of MIPS and CHIP-8 set what the documentation says (doc/CpuDCPU.md 13-14, doc/CpuMIPS.md 6-12,
doc/CpuCHIP.md 64-70), and nothing else; the RC8 has none. -/
theorem C64_other_letters (lib : Lib) (o : State Bool Unit) (m c : State Nat Unit) (r : State (Bool × Bool) Unit) (x : Char) (t : List Char) :
    parse dcpu lib ['m', 'o', '0'] o = .ok {o with cur := {o.cur with machine := false}} ∧
    parse dcpu lib ['m', 'o', '1'] o = .ok {o with cur := {o.cur with machine := true}} ∧
    parse mips lib ['m', 'c', '0'] m = .ok {m with cur := {m.cur with machine := 1}} ∧
    parse mips lib ['m', 'c', '1'] m = .ok {m with cur := {m.cur with machine := 2}} ∧
    parse schip lib ['m', 'c', '0'] c = .ok {c with cur := {c.cur with machine := 1}} ∧
    parse schip lib ['m', 'c', '1'] c = .ok {c with cur := {c.cur with machine := 2}} ∧
    parse rc8 lib ('m' :: x :: t) r = .ok (warn 7 r) :=
  ⟨rfl, rfl, rfl, rfl, rfl, rfl, congrArg Outcome.ok (given_warn r)⟩

/-- All other texts give a warning, unless it is switched off, and set nothing. -/
theorem C64_other_refused {M : Type} (lib : Lib) (letter : Char) (values : List (Char × M)) (s : State M Unit) (l : Char) (t : List Char)
    (h : ∀ c v, (c, v) ∈ values → l :: t ≠ [letter, c]) :
    parse (simple letter values) lib ('m' :: l :: t) s = .ok (warn 7 s) := by
  have key : choose letter values (l :: t) s.cur.machine = (s.cur.machine, [7]) := by
    unfold choose
    split
    · rename_i e; cases e
    · rename_i l' c e
      cases e
      split
      · rename_i hl
        subst hl
        cases hv : values.lookup c with
        | none => rfl
        | some v =>
          obtain ⟨a, b, e, -⟩ := List.lookup_eq_some_iff.1 hv
          exact absurd rfl (h c v (e ▸ List.mem_append_right _ List.mem_cons_self))
      · rfl
    · rfl
  show Outcome.ok _ = _
  simp only [simple, key]
  exact congrArg Outcome.ok (given_warn s)

/-- **C64.** `POPO` restores the options of these processors. -/
theorem C64_other_restored (lib : Lib) {M : Type} (letter : Char) (values : List (Char × M)) {ds : List (Dir Empty)} {s s' : State M Unit}
    (hb : Balanced ds) (h : run (simple letter values) lib (.push :: ds ++ [.pop]) s = .ok s') : s'.cur = s.cur ∧ s'.saved = s.saved :=
  C64_others (fun _ _ => ⟨_, rfl⟩) lib hb h

/-- Numbers are known. -/
def numbers1 : Ctx := ⟨fun _ => 0, 0, fun | .num v => some v | _ => none⟩

/-- **C64, negation.** Whether the DCPU-16 optimises if no option is given is what the memory happens to hold: `SET A,1` is assembled to one
word or to two. -/
theorem C64_dcpu_default : ∃ s s', run dcpu lib0 [] (dcpuStart true) = .ok s ∧ run dcpu lib0 [] (dcpuStart false) = .ok s' ∧
    Dcpu.instr s.cur.machine numbers1 [Dcpu.tok "SET", Dcpu.tok "A", .comma, .num 1] = .ok (some ([.const 2 0x8401], [])) ∧
    Dcpu.instr s'.cur.machine numbers1 [Dcpu.tok "SET", Dcpu.tok "A", .comma, .num 1] = .ok (some ([.const 2 0x7C01, .expr 2 (.num 1)], [])) :=
  ⟨_, _, rfl, rfl, rfl, rfl⟩

/-- After `OPT "mo0"` or `OPT "mo1"` the memory does not matter. -/
theorem C64_dcpu_set (lib : Lib) (b m m' : Bool) :
    run dcpu lib [.opt [['m', 'o', if b then '1' else '0']]] (dcpuStart m) = run dcpu lib [.opt [['m', 'o', if b then '1' else '0']]] (dcpuStart m') := by
  cases b <;> rfl

example : ∃ s, run mips lib0 [.opt ["mc0".toList], .push, .opt ["mc1".toList, "mc2".toList], .pop] mipsStart = .ok s ∧ s.cur.machine = 1 ∧
    s.messages = [7] ∧ mipsStart.cur.machine = 2 ∧ schipStart.cur.machine = 2 := ⟨_, rfl, rfl, rfl, rfl, rfl⟩

end Verif.Options
