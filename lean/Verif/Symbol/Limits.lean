import Verif.Symbol.Fields
/-!
# Examples, and where the symbol table does not do what is expected

The documentation is `doc/Symbols.md`.
-/
namespace Verif.Symbol
open Spec (Path Entry Def World Result)
open Verif.Section (Label)

/-- The meaning of a name and the number of mistakes after a history, nothing if the behaviour is undefined. -/
def outcome (ops : List Op) (p : Path) : Option (Def × Nat) :=
  match init with
  | .ok s0 =>
    match run ops s0 with
    | .ok s => some (meaning p s, s.errors)
    | _ => none
  | _ => none

def isUb (ops : List Op) : Bool :=
  match init with
  | .ok s0 =>
    match run ops s0 with
    | .ub => true
    | _ => false
  | _ => false

theorem ub_of {ops : List Op} (h : isUb ops = true) : ∃ s0, init = .ok s0 ∧ run ops s0 = .ub := by
  unfold isUb at h
  split at h
  · rename_i s0 h0
    refine ⟨s0, h0, ?_⟩
    split at h
    · rename_i h1; exact h1
    · cases h
  · cases h

/-- Whether a name is exported. -/
def exported (ops : List Op) (p : Path) : Option Bool :=
  match init with
  | .ok s0 =>
    match run ops s0 with
    | .ok s => (find p s).map (·.flags.export_)
    | _ => none
  | _ => none

/-! ## The documentation (doc/Symbols.md 68-72, 95-122) -/

example : outcome [.equ "INTF_MASTER" 0x4000, .set "MyCounter" 0, .set "MyCounter" 1] ["MyCounter"] = some (.variable 1, 0) := by
  decide +kernel

/-- The first program of 95-110. -/
def docFields : List Res :=
  [⟨some "str_pStuff", 2, 1⟩, ⟨some "str_tData", 1, 256⟩, ⟨some "str_bCount", 1, 1⟩, ⟨some "str_SIZEOF", 1, 0⟩]

example : ["str_pStuff", "str_tData", "str_bCount", "str_SIZEOF"].map
    (fun n => outcome (.rsset 0 :: docFields.map Res.op) [n]) =
    [some (.variable 0, 0), some (.variable 2, 0), some (.variable 258, 0), some (.variable 259, 0)] := by decide +kernel

theorem start_run : Spec.run [] Spec.start = .good Spec.start := rfl

/-- The hypotheses of `C36_fields`. -/
example : Spec.counter Spec.start ≠ none ∧ Spec.fits 0 ∧ Spec.fits (0 + total docFields) ∧ Spec.fits (total docFields) ∧
    (names docFields).Nodup ∧
    ∀ n ∈ names docFields, Spec.isLocal n = false ∧ n ≠ "__RS" ∧ Free [n] Spec.start := by
  refine ⟨by decide +kernel, by decide +kernel, by decide +kernel, by decide +kernel, by decide +kernel, ?_⟩
  have : ∀ n ∈ names docFields, Spec.isLocal n = false ∧ n ≠ "__RS" ∧ (Spec.start.entry [n]).d = .unknown := by decide +kernel
  intro n h
  obtain ⟨h1, h2, h3⟩ := this n h
  exact ⟨h1, h2, Or.inl h3⟩

/-- The structure of 114-120. -/
def docStruct : List Res := [⟨some ".pStuff", 2, 1⟩, ⟨some ".tData", 1, 256⟩, ⟨some ".bCount", 1, 1⟩]

def docOps : List Op := .rsbegin "MyStruct" 0 :: (docStruct.map Res.op ++ [.rsend])

example : [["MyStruct"], [".pStuff", "MyStruct"], [".tData", "MyStruct"], [".bCount", "MyStruct"], ["__RS"]].map (outcome docOps) =
    [some (.struct 259, 0), some (.variable 0, 0), some (.variable 2, 0), some (.variable 258, 0), some (.variable 259, 0)] := by
  decide +kernel

/-- The hypotheses of `C36_structure`. -/
example : Spec.counter Spec.start ≠ none ∧ Spec.fits 0 ∧ Spec.fits (0 + total docStruct) ∧ Spec.fits (total docStruct) ∧
    Spec.isLocal "MyStruct" = false ∧ (Spec.start.entry ["MyStruct"]).d = .unknown ∧ (names docStruct).Nodup ∧
    ∀ n ∈ names docStruct, n.toList.head? = some '.' ∧ Free [n, "MyStruct"] Spec.start := by
  refine ⟨by decide +kernel, by decide +kernel, by decide +kernel, by decide +kernel, by decide +kernel, by decide +kernel,
    by decide +kernel, ?_⟩
  have : ∀ n ∈ names docStruct, n.toList.head? = some '.' ∧ (Spec.start.entry [n, "MyStruct"]).d = .unknown := by decide +kernel
  intro n h
  obtain ⟨h1, h2⟩ := this n h
  exact ⟨h1, Or.inl h2⟩

/-- A gap in a structure, beginning at 4. -/
example : [["S"], [".a", "S"], [".b", "S"]].map
    (outcome (.rsbegin "S" 4 :: ([(⟨some ".a", 4, 1⟩ : Res), ⟨none, 1, 3⟩, ⟨some ".b", 2, 2⟩].map Res.op ++ [.rsend]))) =
    [some (.struct 15, 0), some (.variable 4, 0), some (.variable 11, 0)] := by decide +kernel

/-! ## Instances of the theorems -/

/-- A history: two labels with a local label of the same name each, a constant and a variable. -/
def sample : List Op :=
  [.label "A" (some (.inside 0 0)), .label ".l" (some (.inside 0 4)), .label "B" (some (.inside 0 8)),
    .label ".l" (some (.inside 0 12)), .equ ".c" 7]

def sampleWorld : Option World :=
  match Spec.run sample Spec.start with
  | .good w => some w
  | .outside => none

/-- `C27_history`, `C28_private` and `C28_own` apply: the history is good. -/
example : sampleWorld.isSome = true := by decide +kernel

example : [[".l", "A"], [".l", "B"], [".c", "B"], [".c", "A"]].map (outcome sample) =
    [some (.label (some 0) 4, 0), some (.label (some 0) 12, 0), some (.constant 7, 0), some (.unknown, 0)] := by decide +kernel

/-- `C27_single`, `C27_refused` and `C27_error`: a second label, a new value and a macro are refused. -/
example : [["A"], [".l", "B"], [".c", "B"]].map (outcome (sample ++ [.label ".l" (some (.inside 0 16)), .set ".c" 8, .macro "A" "nop"])) =
    [some (.label (some 0) 0, 3), some (.label (some 0) 12, 3), some (.constant 7, 3)] := by decide +kernel

example : sampleWorld.map (fun w => ((w.entry (Spec.resolve ".c" w)).d.fixed, (w.entry (Spec.resolve ".c" w)).builtin,
    (w.entry (Spec.resolve ".new" w)).d)) = some (true, false, .unknown) := by decide +kernel

/-- `C28_qualified`: `A.l` is the label of the first scope. -/
example : (match init with
    | .ok s0 =>
      match run sample s0 with
      | .ok s => (find [".l", "A"] s).map (·.id) == some (mention "A" [".l"] s).1
      | _ => false
    | _ => false) = true := by decide +kernel

/-- `C27_variable`: other directives in between. -/
example : outcome [.set "X" 1, .set "X" 2, .equ "Y" 3, .label "L" (some (.inside 0 0)), .set ".X" 9] ["X"] =
    some (.variable 2, 0) := by decide +kernel

/-! ## Scopes that are not begun by labels -/

/-- A scope begins with a global label and ends with the next (doc/Symbols.md 14, 25). In

```
Loop: …
.again: …
Count SET 1
  jump .again
```
the name `.again` after the assignment is a new, unknown one: each definition of a name that is not local begins a scope, if
it is not a string symbol, macro, group or import. -/
theorem C28_scope_not_by_label :
    ∃ ops : List Op, (∀ op ∈ ops.drop 2, ∀ n l, op ≠ .label n l) ∧
      outcome (ops.take 2) [".again", "Loop"] = some (.label (some 0) 4, 0) ∧
      (match init with
        | .ok s0 =>
          match run ops s0 with
          | .ok s => some ((getSymbol ".again" (assumedScope ".again" s) s).isSome, s.errors)
          | _ => none
        | _ => none) = some (false, 0) := by
  refine ⟨[.label "Loop" (some (.inside 0 0)), .label ".again" (some (.inside 0 4)), .set "Count" 1], ?_, ?_, ?_⟩
  · intro op h n l
    simp only [List.drop_succ_cons, List.drop_zero, List.mem_singleton] at h
    subst h
    simp
  · decide +kernel
  · decide +kernel

/-- The same with `RSRESET` without a name, the first time the counter is used; not the second time. -/
theorem C28_scope_counter :
    (match init with
      | .ok s0 =>
        match run [.label "Loop" (some (.inside 0 0)), .label ".again" (some (.inside 0 4)), .rsset 0] s0 with
        | .ok s => some (getSymbol ".again" (assumedScope ".again" s) s).isSome
        | _ => none
      | _ => none) = some false ∧
    (match init with
      | .ok s0 =>
        match run [.rsset 0, .label "Loop" (some (.inside 0 0)), .label ".again" (some (.inside 0 4)), .rsset 0] s0 with
        | .ok s => some (getSymbol ".again" (assumedScope ".again" s) s).isSome
        | _ => none
      | _ => none) = some true := by
  constructor <;> decide +kernel

/-- A program without labels has local symbols of `__ASMOTOR`, the last symbol that the assembler defines itself. -/
example : outcome [.equ ".x" 1] [".x", "__ASMOTOR"] = some (.constant 1, 0) := by decide +kernel

/-! ## The counter -/

/-- The counter is a symbol like others. If `__RS` has another meaning when it is first needed, it is not found, and the null
pointer is used. -/
theorem C36_counter_taken : ∃ s0, init = .ok s0 ∧ run [.equ "__RS" 5, .rsset 0] s0 = .ub := ub_of (by decide +kernel)

/-- A value given to `__RS` before the first use is lost. -/
theorem C36_counter_assigned : outcome [.set "__RS" 5, .rsfield "a" 1 1] ["a"] = some (.variable 0, 0) ∧
    outcome [.rsset 0, .set "__RS" 5, .rsfield "a" 1 1] ["a"] = some (.variable 5, 0) := by
  constructor <;> decide +kernel

/-- Symbols defined with `RB` are variables: a name can be used twice, and the first field is lost without a message. -/
theorem C36_field_twice : ∃ ops : List Op, ops = [.rsset 0, .rsfield "a" 1 4, .rsfield "b" 1 4, .rsfield "a" 1 4] ∧
    outcome ops ["a"] = some (.variable 8, 0) := ⟨_, rfl, by decide +kernel⟩

/-- The size is reserved although the name is refused. -/
theorem C27_error_counter : outcome [.rsset 0, .equ "a" 1, .rsfield "a" 1 4] ["__RS"] = some (.variable 4, 1) := by
  decide +kernel

/-- `MyStruct.SIZEOF` is said to exist (doc/Symbols.md 122), but nothing defines it. -/
theorem C36_sizeof : outcome docOps [".SIZEOF", "MyStruct"] = some (.unknown, 0) := by decide +kernel

/-- A structure whose name is mentioned by `GLOBAL` first cannot be defined, a label can. -/
example : outcome [.global "S", .rsbegin "S" 0] ["S"] = some (.shared, 1) ∧
    outcome [.global "S", .label "S" (some (.inside 0 0))] ["S"] = some (.label (some 0) 0, 0) := by
  constructor <;> decide +kernel

/-! ## The symbols of the assembler -/

/-- A symbol that the assembler has defined has no place of definition, and the message that tells where it was defined uses
the null pointer. -/
theorem C27_builtin_constant : ∃ s0, init = .ok s0 ∧ run [.equ "__NARG" 1] s0 = .ub := ub_of (by decide +kernel)

theorem C27_builtin_export : ∃ s0, init = .ok s0 ∧ run [.export_ "__DATE"] s0 = .ub := ub_of (by decide +kernel)

/-- Elsewhere a mistake is reported. -/
example : outcome [.set "__NARG" 1] ["__NARG"] = some (.constant 0, 1) := by decide +kernel

/-! ## Exporting -/

/-- A variable is not exportable, but is exported if that is announced before it is assigned. -/
theorem C27_export_variable : exported [.set "x" 1, .export_ "x"] ["x"] = some false ∧
    outcome [.set "x" 1, .export_ "x"] ["x"] = some (.variable 1, 1) ∧
    exported [.export_ "x", .set "x" 1] ["x"] = some true ∧ outcome [.export_ "x", .set "x" 1] ["x"] = some (.variable 1, 0) := by
  refine ⟨?_, ?_, ?_, ?_⟩ <;> decide +kernel

/-- A group cannot be defined after its name was used. -/
theorem C27_group_after_use : outcome [.mention "G" [], .group "G" true] ["G"] = some (.unknown, 1) ∧
    outcome [.group "G" true] ["G"] = some (.group true, 0) := by
  constructor <;> decide +kernel

/-! ## Removal -/

/-- After its removal the current scope is still used: a pointer to memory that was released. -/
theorem C28_purge_scope : ∃ s0, init = .ok s0 ∧ run [.rsbegin "S" 0, .purge "S", .rsend] s0 = .ub := ub_of (by decide +kernel)

theorem C36_purge_counter : ∃ s0, init = .ok s0 ∧ run [.rsset 0, .purge "__RS", .rsset 0] s0 = .ub := ub_of (by decide +kernel)

/-- A name that was removed can be defined anew. -/
example : outcome [.equ "x" 1, .purge "x", .equ "y" 0, .equ "x" 2] ["x"] = some (.constant 2, 0) := by decide +kernel

end Verif.Symbol
