import Verif.Symbol.Refine
/-! # Every operation does what it means in the dictionary -/
namespace Verif.Symbol
open Spec (Path Entry Def World Result)
open Verif.Section (Label)

theorem modifiable_eq {s : State} (hi : Inv s) {x : Symbol} (hx : x ∈ s.table) :
    x.flags.modifiable = match x.type with
      | .set | .group | .global | .undefined => true
      | _ => false := by
  rw [hi.flags x hx]
  cases x.type <;> rfl

theorem exportable_eq {s : State} (hi : Inv s) {x : Symbol} (hx : x ∈ s.table) :
    x.flags.exportable = match x.type with
      | .label | .equ | .group | .undefined => true
      | _ => false := by
  rw [hi.flags x hx]
  cases x.type <;> rfl

theorem setType_flags (t : SymType) (h : t ≠ .group) (x : Symbol) : (setType t x).flags = flagsOf t x.flags.export_ := by
  unfold setType flagsOf
  rw [if_neg h]
  cases t with
  | group => exact absurd rfl h
  | _ => simp [defaultFlags]

theorem setType_export (t : SymType) (h : t ≠ .group) (x : Symbol) : (setType t x).flags.export_ = x.flags.export_ := by
  rw [setType_flags t h]
  rfl

theorem Rel.unchanged {s : State} {w : World} {p : Path} (h : Rel s (w.touch p)) (hd : (w.entry p).d ≠ .unknown) : Rel s w := by
  apply h.touched
  intro hn
  rw [World.entry, hn] at hd
  exact hd rfl

theorem Rel.define {s : State} {w : World} {p : Path} {x x' : Symbol} {d : Def} (hR : Rel s (w.touch p)) (hf : find p s = some x)
    (he : w.entry p = entryOf x) (hid : x'.id = x.id) (hn : x'.name = x.name) (hs : x'.scope = x.scope)
    (hfl : x'.flags = flagsOf x'.type x'.flags.export_)
    (hd : entryOf x' = { entryOf x with d := d, exported := (entryOf x).exported || (entryOf x).d = .shared }) :
    Rel (s.put x') (Spec.define p d w) := by
  unfold Spec.define
  rw [he]
  have := (hR.put hf hid hn hs hfl).put_touch
  rw [hd] at this
  exact this

theorem Rel.mark {s : State} {w : World} {p : Path} {x : Symbol} (hR : Rel s (w.touch p)) (hf : find p s = some x)
    (he : w.entry p = entryOf x) : Rel (s.put { x with flags := { x.flags with export_ := true } }) (Spec.mark p w) := by
  unfold Spec.mark
  rw [he]
  refine (hR.put hf (x' := { x with flags := { x.flags with export_ := true } }) rfl rfl rfl ?_).put_touch
  simp only
  rw [hR.inv.flags x (find_mem hf)]
  rfl

theorem Rel.defineEnter {s : State} {w : World} {n : String} {x x' : Symbol} {d : Def}
    (hR : Rel s (w.touch (Spec.resolve n w))) (hf : find (Spec.resolve n w) s = some x)
    (he : w.entry (Spec.resolve n w) = entryOf x) (hxn : x.name = n) (hid : x'.id = x.id) (hn : x'.name = x.name)
    (hs : x'.scope = x.scope) (hfl : x'.flags = flagsOf x'.type x'.flags.export_)
    (hd : entryOf x' = { entryOf x with d := d, exported := (entryOf x).exported || (entryOf x).d = .shared }) :
    Rel ((s.put x').enter x) (Spec.enter n (Spec.define (Spec.resolve n w) d w)) := by
  have h := hR.define hf he hid hn hs hfl hd
  have hf' : find (Spec.resolve n w) (s.put x') = some x' := by
    rw [find_put hR.inv (find_mem hf) hid hn hs, hf, Option.map_some, upd_self hid]
  have henter : (s.put x').enter x = (s.put x').enter x' := by
    unfold State.enter
    rw [hid, hn]
  have := h.enter (x := x') (by rw [hn, hxn]; exact hf')
  rw [hn, hxn] at this
  rw [henter]
  exact this

theorem mem_of_find {s : State} {p : Path} {x : Symbol} (h : find p s = some x) : x ∈ s.table := find_mem h

/-- Symbols that `createSymbolOfType` makes. -/
theorem set_rel {s : State} {w : World} (h : Rel s w) (n : String) (v : Int) : Rel (createSet n v s) (Spec.set n v w) := by
  obtain ⟨hR, hf, he⟩ := h.findOrCreate n
  have hxn := findOrCreate_name n s
  unfold createSet createOfType Spec.set
  revert hR hf he hxn
  generalize findOrCreate n s = r
  obtain ⟨x, s1⟩ := r
  intro hR hf he hxn
  simp only at hR hf he hxn ⊢
  have hm := modifiable_eq hR.inv (find_mem hf)
  have hbad : (entryOf x).d ≠ .unknown → Rel s1.error w.fail := by
    intro hd
    rw [← he] at hd
    exact (hR.unchanged hd).fail
  have hgood : (entryOf x).d ≠ .shared → Rel ((s1.put { setType .set x with integer := v }).enter x)
      (Spec.enter n (Spec.define (Spec.resolve n w) (.variable v) w)) := by
    intro hd
    refine hR.defineEnter hf he hxn rfl rfl rfl (by simp only [setType_flags .set (by decide)]; rfl) ?_
    simp only [entryOf, defOf] at hd
    cases ht : x.type <;> simp only [ht] at hd <;> first
      | exact absurd rfl hd
      | simp [entryOf, defOf, setType, ht, defaultFlags]
  rw [he]
  cases ht : x.type <;> simp only [ht] at hm <;> simp only [hm, canBeType, ht, entryOf, defOf] <;>
    simp only [entryOf, defOf, ht] at hbad hgood
  all_goals first
    | exact hgood (by simp)
    | exact hbad (by simp)

theorem struct_rel {s : State} {w : World} (h : Rel s w) (n : String) (v : Int) :
    Rel (createStructure n v s) (Spec.struct n v w) := by
  obtain ⟨hR, hf, he⟩ := h.findOrCreate n
  have hxn := findOrCreate_name n s
  unfold createStructure createOfType Spec.struct
  revert hR hf he hxn
  generalize findOrCreate n s = r
  obtain ⟨x, s1⟩ := r
  intro hR hf he hxn
  simp only at hR hf he hxn ⊢
  have hm := modifiable_eq hR.inv (find_mem hf)
  have hbad : (entryOf x).d ≠ .unknown → Rel s1.error w.fail := by
    intro hd
    rw [← he] at hd
    exact (hR.unchanged hd).fail
  have hgood : (entryOf x).d ≠ .shared → Rel ((s1.put { setType .structure x with integer := v }).enter x)
      (Spec.enter n (Spec.define (Spec.resolve n w) (.struct v) w)) := by
    intro hd
    refine hR.defineEnter hf he hxn rfl rfl rfl (by simp only [setType_flags .structure (by decide)]; rfl) ?_
    simp only [entryOf, defOf] at hd
    cases ht : x.type <;> simp only [ht] at hd <;> first
      | exact absurd rfl hd
      | simp [entryOf, defOf, setType, ht, defaultFlags]
  rw [he]
  cases ht : x.type <;> simp only [ht] at hm <;> simp only [hm, canBeType, ht, entryOf, defOf] <;>
    simp only [entryOf, defOf, ht] at hbad hgood
  all_goals first
    | exact hgood (by simp)
    | exact hbad (by simp)

theorem equs_rel {s : State} {w : World} (h : Rel s w) (n t : String) :
    Rel (createEqus n t s) (Spec.textual n (.text t) w) := by
  obtain ⟨hR, hf, he⟩ := h.findOrCreate n
  unfold createEqus createOfType Spec.textual
  revert hR hf he
  generalize findOrCreate n s = r
  obtain ⟨x, s1⟩ := r
  intro hR hf he
  simp only at hR hf he ⊢
  have hm := modifiable_eq hR.inv (find_mem hf)
  have hbad : (entryOf x).d ≠ .unknown → Rel s1.error w.fail := by
    intro hd
    rw [← he] at hd
    exact (hR.unchanged hd).fail
  have hgood : (entryOf x).d ≠ .shared → Rel (s1.put { setType .equs x with text := t })
      (Spec.define (Spec.resolve n w) (.text t) w) := by
    intro hd
    refine hR.define hf he rfl rfl rfl (by simp only [setType_flags .equs (by decide)]; rfl) ?_
    simp only [entryOf, defOf] at hd
    cases ht : x.type <;> simp only [ht] at hd <;> first
      | exact absurd rfl hd
      | simp [entryOf, defOf, setType, ht, defaultFlags]
  rw [he]
  cases ht : x.type <;> simp only [ht] at hm <;> simp only [hm, canBeType, ht, entryOf, defOf] <;>
    simp only [entryOf, defOf, ht] at hbad hgood
  all_goals first
    | exact hgood (by simp)
    | exact hbad (by simp)

theorem macro_rel {s : State} {w : World} (h : Rel s w) (n t : String) :
    Rel (createMacro n t s) (Spec.textual n (.macro t) w) := by
  obtain ⟨hR, hf, he⟩ := h.findOrCreate n
  unfold createMacro createOfType Spec.textual
  revert hR hf he
  generalize findOrCreate n s = r
  obtain ⟨x, s1⟩ := r
  intro hR hf he
  simp only at hR hf he ⊢
  have hm := modifiable_eq hR.inv (find_mem hf)
  have hbad : (entryOf x).d ≠ .unknown → Rel s1.error w.fail := by
    intro hd
    rw [← he] at hd
    exact (hR.unchanged hd).fail
  have hgood : (entryOf x).d ≠ .shared → Rel (s1.put { setType .macro x with text := t })
      (Spec.define (Spec.resolve n w) (.macro t) w) := by
    intro hd
    refine hR.define hf he rfl rfl rfl (by simp only [setType_flags .macro (by decide)]; rfl) ?_
    simp only [entryOf, defOf] at hd
    cases ht : x.type <;> simp only [ht] at hd <;> first
      | exact absurd rfl hd
      | simp [entryOf, defOf, setType, ht, defaultFlags]
  rw [he]
  cases ht : x.type <;> simp only [ht] at hm <;> simp only [hm, canBeType, ht, entryOf, defOf] <;>
    simp only [entryOf, defOf, ht] at hbad hgood
  all_goals first
    | exact hgood (by simp)
    | exact hbad (by simp)

theorem import_rel {s : State} {w : World} (h : Rel s w) (n : String) : Rel (importSymbol n s) (Spec.imports n w) := by
  obtain ⟨hR, hf, he⟩ := h.findOrCreate n
  unfold importSymbol Spec.imports
  revert hR hf he
  generalize findOrCreate n s = r
  obtain ⟨x, s1⟩ := r
  intro hR hf he
  simp only at hR hf he ⊢
  have hbad : (entryOf x).d ≠ .unknown → Rel s1.error w.fail := by
    intro hd
    rw [← he] at hd
    exact (hR.unchanged hd).fail
  have hgood : (entryOf x).d ≠ .shared → Rel (s1.put { setType .import x with integer := 0 })
      (Spec.define (Spec.resolve n w) .imported w) := by
    intro hd
    refine hR.define hf he rfl rfl rfl (by simp only [setType_flags .import (by decide)]; rfl) ?_
    simp only [entryOf, defOf] at hd
    cases ht : x.type <;> simp only [ht] at hd <;> first
      | exact absurd rfl hd
      | simp [entryOf, defOf, setType, ht, defaultFlags]
  rw [he]
  cases ht : x.type <;> simp only [ht, entryOf, defOf] <;> simp only [entryOf, defOf, ht] at hbad hgood
  all_goals first
    | exact hgood (by simp)
    | exact hbad (by simp)

/-- The outcome of an operation that may be outside of what is considered. -/
def Refines (o : Outcome State) (r : Result) : Prop :=
  match r with
  | .good w => ∃ s, o = .ok s ∧ Rel s w
  | .outside => True

theorem Refines.bind {o : Outcome State} {r : Result} {f : State → Outcome State} {g : World → Result} (h : Refines o r)
    (hf : ∀ s w, Rel s w → Refines (f s) (g w)) : Refines (o.bind f) (r.bind g) := by
  cases r with
  | outside => trivial
  | good w =>
    obtain ⟨s, rfl, hs⟩ := h
    exact hf s w hs

theorem refuse_rel {s1 : State} {w : World} {p : Path} {x : Symbol} (hR : Rel s1 (w.touch p)) (he : w.entry p = entryOf x)
    (hd : (entryOf x).d ≠ .unknown) : Refines (if x.internal then .ub else .ok s1.error) (Spec.refuse p w) := by
  unfold Spec.refuse
  have hb : (w.entry p).builtin = x.internal := by rw [he]; rfl
  rw [hb]
  cases x.internal with
  | true => trivial
  | false =>
    refine ⟨_, rfl, ?_⟩
    rw [← he] at hd
    exact (hR.unchanged hd).fail

theorem equ_rel {s : State} {w : World} (h : Rel s w) (n : String) (v : Int) :
    Refines (createEqu n v s) (Spec.constant n v w) := by
  obtain ⟨hR, hf, he⟩ := h.findOrCreate n
  have hxn := findOrCreate_name n s
  unfold createEqu Spec.constant
  revert hR hf he hxn
  generalize findOrCreate n s = r
  obtain ⟨x, s1⟩ := r
  intro hR hf he hxn
  simp only at hR hf he hxn ⊢
  have hm := modifiable_eq hR.inv (find_mem hf)
  have hbad := refuse_rel hR he
  have hgood : x.type = .undefined ∨ x.type = .global → Rel ((s1.put { setType .equ (markGlobal x) with integer := v }).enter x)
      (Spec.enter n (Spec.define (Spec.resolve n w) (.constant v) w)) := by
    intro hd
    refine hR.defineEnter hf he hxn ?_ ?_ ?_ (by simp only [setType_flags .equ (by decide)]; rfl) ?_
    · simp only [setType, markGlobal]; split <;> rfl
    · simp only [setType, markGlobal]; split <;> rfl
    · simp only [setType, markGlobal]; split <;> rfl
    · rcases hd with hd | hd <;> simp [entryOf, defOf, setType, hd, defaultFlags, markGlobal]
  rw [he]
  cases ht : x.type <;> simp only [ht] at hm <;> simp only [hm, canBeType, canDefine, ht, entryOf, defOf] <;>
    simp only [entryOf, defOf, ht] at hbad hgood
  all_goals first
    | exact ⟨_, rfl, hgood (by simp)⟩
    | exact hbad (by simp)

theorem label_rel {s : State} {w : World} (h : Rel s w) (n : String) (l : Option Label) :
    Refines (.ok (createLabel n l s)) (Spec.label n l w) := by
  obtain ⟨hR, hf, he⟩ := h.findOrCreate n
  have hxn := findOrCreate_name n s
  unfold createLabel Spec.label
  revert hR hf he hxn
  generalize findOrCreate n s = r
  obtain ⟨x, s1⟩ := r
  intro hR hf he hxn
  simp only at hR hf he hxn ⊢
  have hm := modifiable_eq hR.inv (find_mem hf)
  have hbad : (entryOf x).d ≠ .unknown → Refines (.ok s1.error) (.good w.fail) := by
    intro hd
    rw [← he] at hd
    exact ⟨_, rfl, (hR.unchanged hd).fail⟩
  have hgood : x.type = .undefined ∨ x.type = .global → ∀ v : Int, Rel ((s1.put { setType .equ (markGlobal x) with integer := v }).enter x)
      (Spec.enter n (Spec.define (Spec.resolve n w) (.constant v) w)) := by
    intro hd v
    refine hR.defineEnter hf he hxn ?_ ?_ ?_ (by simp only [setType_flags .equ (by decide)]; rfl) ?_
    · simp only [setType, markGlobal]; split <;> rfl
    · simp only [setType, markGlobal]; split <;> rfl
    · simp only [setType, markGlobal]; split <;> rfl
    · rcases hd with hd | hd <;> simp [entryOf, defOf, setType, hd, defaultFlags, markGlobal]
  have hgood' : x.type = .undefined ∨ x.type = .global → ∀ (i : Nat) (v : Int),
      Rel ((s1.put { setType .label (markGlobal x) with sect := some i, integer := v }).enter x)
      (Spec.enter n (Spec.define (Spec.resolve n w) (.label (some i) v) w)) := by
    intro hd i v
    refine hR.defineEnter hf he hxn ?_ ?_ ?_ (by simp only [setType_flags .label (by decide)]; rfl) ?_
    · simp only [setType, markGlobal]; split <;> rfl
    · simp only [setType, markGlobal]; split <;> rfl
    · simp only [setType, markGlobal]; split <;> rfl
    · rcases hd with hd | hd <;> simp [entryOf, defOf, setType, hd, defaultFlags, markGlobal]
  have hnone : x.type = .undefined → Rel (s1.put (markGlobal x)).error (w.touch (Spec.resolve n w)).fail := by
    intro ht
    have hx : markGlobal x = x := by simp [markGlobal, ht]
    rw [hx]
    apply Rel.fail
    have := hR.put hf (x' := x) rfl rfl rfl (hR.inv.flags x (find_mem hf))
    rw [← he] at this
    exact this.put_touch
  rw [he]
  cases ht : x.type <;> simp only [ht] at hm <;> simp only [hm, canBeType, canDefine, ht, entryOf, defOf] <;>
    simp only [entryOf, defOf, ht] at hbad hgood hgood' hnone
  case undefined =>
    cases l with
    | none => exact ⟨_, rfl, hnone trivial⟩
    | some l =>
      cases l with
      | constant v => exact ⟨_, rfl, hgood (by simp) _⟩
      | inside i m => exact ⟨_, rfl, hgood' (by simp) i m⟩
  case global =>
    cases l with
    | none => trivial
    | some l =>
      cases l with
      | constant v => exact ⟨_, rfl, hgood (by simp) _⟩
      | inside i m => exact ⟨_, rfl, hgood' (by simp) i m⟩
  all_goals exact hbad (by simp)

theorem group_rel {s : State} {w : World} (h : Rel s w) (n : String) (b : Bool) : Rel (createGroup n b s) (Spec.group n b w) := by
  unfold createGroup Spec.group
  rw [h.get, find_cons (p := []) (sc := none) rfl]
  cases hg : getSymbol n none s with
  | some x =>
    simp only [Option.map_some]
    by_cases hc : x.type = .group ∧ x.bss = b
    · rw [if_pos hc, if_pos (by simp [entryOf, defOf, hc.1, hc.2])]
      exact h
    · rw [if_neg hc, if_neg]
      · exact h.fail
      · intro hd
        simp only [entryOf, defOf] at hd
        cases ht : x.type <;> simp only [ht, reduceCtorEq] at hd
        injection hd with hd
        exact hc ⟨ht, hd⟩
  | none =>
    simp only [Option.map_none]
    obtain ⟨hR, hf, he⟩ := h.create (p := []) (sc := none) rfl hg
    exact hR.define hf he (x' := { (createSymbol n none s).1 with type := .group, bss := b }) rfl rfl rfl rfl rfl

theorem export_rel {s : State} {w : World} (h : Rel s w) (n : String) : Refines (exportSymbol n s) (Spec.exports n w) := by
  obtain ⟨hR, hf, he⟩ := h.findOrCreate n
  unfold exportSymbol Spec.exports
  revert hR hf he
  generalize findOrCreate n s = r
  obtain ⟨x, s1⟩ := r
  intro hR hf he
  simp only at hR hf he ⊢
  have hm := exportable_eq hR.inv (find_mem hf)
  have hbad := refuse_rel hR he
  have hgood := hR.mark hf he
  revert hgood
  generalize s1.put { x with flags := { x.flags with export_ := true } } = good
  intro hgood
  rw [he]
  cases ht : x.type <;> simp only [ht] at hm <;> simp only [hm, ht, entryOf, defOf] <;>
    simp only [entryOf, defOf, ht] at hbad
  all_goals first
    | exact ⟨_, rfl, hgood⟩
    | exact hbad (by simp)

theorem global_rel {s : State} {w : World} (h : Rel s w) (n : String) : Refines (globalSymbol n s) (Spec.global n w) := by
  obtain ⟨hR, hf, he⟩ := h.findOrCreate n
  unfold globalSymbol Spec.global
  revert hR hf he
  generalize findOrCreate n s = r
  obtain ⟨x, s1⟩ := r
  intro hR hf he
  simp only at hR hf he ⊢
  have hm := exportable_eq hR.inv (find_mem hf)
  have hbad := refuse_rel hR he
  have hgood := hR.mark hf he
  revert hgood
  generalize s1.put { x with flags := { x.flags with export_ := true } } = good
  intro hgood
  have hdef : x.type = .undefined → Rel (s1.put { setType .global x with integer := 0 })
      (Spec.define (Spec.resolve n w) .shared w) := by
    intro ht
    refine hR.define hf he rfl rfl rfl (by simp only [setType_flags .global (by decide)]; rfl) ?_
    simp [entryOf, defOf, setType, ht, defaultFlags]
  rw [he]
  cases ht : x.type <;> simp only [ht] at hm <;> simp only [hm, ht, entryOf, defOf] <;>
    simp only [entryOf, defOf, ht] at hbad
  case undefined => exact ⟨_, rfl, hdef ht⟩
  all_goals first
    | exact ⟨_, rfl, hgood⟩
    | exact hbad (by simp)

end Verif.Symbol
