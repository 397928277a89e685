import Verif.Program.Emit
import Verif.Program.Props
import Verif.Resolve.Props
/-!
# C62: programs that are linked

Several programs are assembled and linked. In every section the symbols stand for their addresses; an imported symbol stands for
the symbol of that name which another program exports.
-/
namespace Verif.Program
open Verif.Expr (AExpr ASym SymType FMath Den I32 toI32)
open Verif.Resolve (Slot Res Means Own Sound)

/-- The symbol is found in another file, as the source says. -/
def Module.Import (M : Module) (s : Nat) : Prop := (M.sym s).type = .imported ∨ (M.sym s).type = .global

/-- The symbol has a place or a number that other sections or programs use. -/
def Module.Provides (M : Module) (t : Nat) : Prop :=
  ((M.exported t = true ∨ M.fileExport t = true) ∧ ∃ k, (M.sym t).sect = some k) ∨
  (M.exported t = true ∧ ((M.sym t).type = .equ ∨ (M.sym t).type = .set))

/-- The symbol occurs in an expression of the section that is left to the linker. -/
def Module.Uses (M : Module) (k s : Nat) : Prop := ∃ e ∈ M.expressions k, s ∈ e.names

/-- What is known about a program that has been assembled: sections are placed at `base`, symbols have the addresses `ρ`, and
only labels are in sections. -/
structure Module.Good (M : Module) (base : Nat → Int) (ρ : Den) : Prop where
  places : M.prog.asm.Places base ρ
  label : ∀ s k, (M.sym s).sect = some k → (M.sym s).type = .label ∧ I32 (M.sym s).value

/-- Inside a program, names that other sections use are unique. -/
def Module.Distinct (M : Module) : Prop :=
  ∀ k s t, M.Uses k s → (M.sym s).sect ≠ some k → ¬ M.Import s → M.Provides t → M.name t = M.name s → t = s

/-- The sections of the linker are those of the object files, in any order, and placed. `origin` is the program and the section
in it, or none for its exported constants. There is no memory layout with symbols of its own. -/
structure Linking (mods : List Module) (base : Nat → Nat → Int) (secs : List Resolve.Sect) (origin : Nat → Nat × Option Nat) : Prop where
  source : ∀ (j : Nat) (S : Resolve.Sect), secs[j]? = some S → ∃ M, mods[(origin j).1]? = some M ∧ S.fileId = (origin j).1
  placed : ∀ (j : Nat) (S : Resolve.Sect) M k, secs[j]? = some S → mods[(origin j).1]? = some M → (origin j).2 = some k →
    S.loc = base (origin j).1 k ∧ S.loc ≠ -1 ∧ S.symbols.map some = (M.symbols k).map fun x => readSymbol x.2
  constants : ∀ (j : Nat) (S : Resolve.Sect) M, secs[j]? = some S → mods[(origin j).1]? = some M → (origin j).2 = none →
    S.equ = true ∧ S.loc = -1 ∧ S.bank = -1 ∧ S.symbols.map some = M.constants.map fun x => readSymbol x.2
  banks : ∀ (j : Nat) (S : Resolve.Sect), secs[j]? = some S → I32 S.bank

/-- The symbols of all programs together: what one imports is what another exports, and a symbol has the bank of its section. -/
structure Agree (mods : List Module) (secs : List Resolve.Sect) (origin : Nat → Nat × Option Nat) (ρ : Nat → Den) : Prop where
  imports : ∀ i j M N s t, mods[i]? = some M → mods[j]? = some N → M.Import s → N.exported t = true → N.Provides t → N.name t = M.name s →
    (ρ i).sym s = (ρ j).sym t ∧ (ρ i).bank s = (ρ j).bank t
  banks : ∀ (j : Nat) (S : Resolve.Sect) M k t, secs[j]? = some S → mods[(origin j).1]? = some M → (origin j).2 = some k → (M.sym t).sect = some k → S.bank ≠ -1 →
    (ρ (origin j).1).bank t = some S.bank

section
variable {M : Module} {k : Nat}

/-- What the entries of an object file say. -/
structure Entered (M : Module) (k : Nat) (x : Nat × Object.Symbol) : Prop where
  name : x.2.name = M.name x.1
  kind : ((M.sym x.1).sect = some k ∧ x.2.value = Expr.u32 (M.sym x.1).value ∧
      ((x.2.type = 0 ∧ M.exported x.1 = true) ∨ (x.2.type = 3 ∧ M.fileExport x.1 = true) ∨ x.2.type = 2)) ∨
    ((M.sym x.1).sect ≠ some k ∧ M.Import x.1 ∧ x.2.type = 1) ∨
    ((M.sym x.1).sect ≠ some k ∧ ¬ M.Import x.1 ∧ x.2.type = 4 ∧ M.Uses k x.1)

theorem entered_flagged : ∀ x ∈ M.flagged k, Entered M k x := by
  intro x hx
  obtain ⟨s, hs, rfl⟩ := List.mem_map.1 hx
  have h1 := (List.mem_filter.1 hs).2
  simp only [Bool.and_eq_true, decide_eq_true_eq] at h1
  refine ⟨rfl, .inl ⟨h1.1, ?_, ?_⟩⟩
  · simp only [Module.entry]
    by_cases he : M.exported s = true
    · simp [he, Object.hasValue]
    · by_cases hf : M.fileExport s = true <;> simp [he, hf, Object.hasValue]
  · simp only [Module.entry]
    by_cases he : M.exported s = true
    · simp [he]
    · by_cases hf : M.fileExport s = true <;> simp [he, hf]

theorem entered_mention {l : List (Nat × Object.Symbol)} {s : Nat} (hl : ∀ x ∈ l, Entered M k x) (hs : M.Uses k s) :
    ∀ x ∈ M.mention k l s, Entered M k x := by
  unfold Module.mention
  split
  · exact hl
  · intro x hx
    rcases List.mem_append.1 hx with hx | hx
    · exact hl x hx
    · rw [List.mem_singleton.1 hx]
      refine ⟨rfl, ?_⟩
      simp only [Module.entry]
      by_cases h1 : (M.sym s).sect = some k
      · refine .inl ⟨h1, ?_, ?_⟩ <;> simp only [if_pos h1]
        · by_cases hf : M.fileExport s = true
          · simp [hf, Object.hasValue]
          · by_cases he : M.exported s = true <;> simp [he, hf, Object.hasValue]
        · by_cases hf : M.fileExport s = true
          · simp [hf]
          · by_cases he : M.exported s = true <;> simp [he, hf]
      · simp only [if_neg h1]
        by_cases h2 : (M.sym s).type = .imported ∨ (M.sym s).type = .global
        · exact .inr (.inl ⟨h1, h2, by simp only [if_pos h2]⟩)
        · exact .inr (.inr ⟨h1, h2, by simp only [if_neg h2], hs⟩)

theorem entered_write : ∀ (e : AExpr) {l : List (Nat × Object.Symbol)}, (∀ x ∈ l, Entered M k x) → (∀ s ∈ e.names, M.Uses k s) →
    ∀ x ∈ M.writeSymbols k l e, Entered M k x
  | .const _, _, hl, _ => hl
  | .sym s, _, hl, h => entered_mention hl (h s (by simp [AExpr.names]))
  | .bank s, _, hl, h => entered_mention hl (h s (by simp [AExpr.names]))
  | .pcRel a b, _, hl, h => by
    simp only [AExpr.names, List.mem_append] at h
    exact entered_write b (entered_write a hl (fun s hs => h s (.inl hs))) (fun s hs => h s (.inr hs))
  | .parens _ e, _, hl, h => entered_write e hl h
  | .bin _ _ a b, _, hl, h => by
    simp only [AExpr.names, List.mem_append] at h
    exact entered_write b (entered_write a hl (fun s hs => h s (.inl hs))) (fun s hs => h s (.inr hs))
  | .un _ _ e, _, hl, h => entered_write e hl h
  | .bit _ e, _, hl, h => entered_write e hl h

theorem entered_all : ∀ x ∈ M.symbols k, Entered M k x := by
  have : ∀ (es : List AExpr) (l : List (Nat × Object.Symbol)), (∀ x ∈ l, Entered M k x) → (∀ e ∈ es, ∀ s ∈ e.names, M.Uses k s) →
      ∀ x ∈ es.foldl (M.writeSymbols k) l, Entered M k x := by
    intro es
    induction es with
    | nil => intro l hl _; exact hl
    | cons e es ih =>
      intro l hl h
      exact ih _ (entered_write e hl (h e (by simp))) (fun e' he' => h e' (by simp [he']))
  exact this _ _ entered_flagged (fun e he s hs => ⟨e, he, hs⟩)

/-- Nothing is taken out of the list, and what has been mentioned is in it. -/
theorem mem_mention {l : List (Nat × Object.Symbol)} {s : Nat} :
    (∀ x ∈ l, x ∈ M.mention k l s) ∧ ∃ y, (s, y) ∈ M.mention k l s := by
  unfold Module.mention
  split
  · rename_i h
    obtain ⟨⟨t, y⟩, h1, h2⟩ := List.any_eq_true.1 h
    have : t = s := by simpa using h2
    subst this
    exact ⟨fun x hx => hx, y, h1⟩
  · exact ⟨fun x hx => List.mem_append.2 (.inl hx), _, List.mem_append.2 (.inr (List.mem_singleton.2 rfl))⟩

theorem mem_write : ∀ (e : AExpr) {l : List (Nat × Object.Symbol)},
    (∀ x ∈ l, x ∈ M.writeSymbols k l e) ∧ ∀ s ∈ e.names, ∃ y, (s, y) ∈ M.writeSymbols k l e
  | .const _, _ => ⟨fun _ h => h, fun _ h => by cases h⟩
  | .sym s, _ => ⟨mem_mention.1, fun t ht => by
    have : t = s := by simpa [AExpr.names] using ht
    subst this; exact mem_mention.2⟩
  | .bank s, _ => ⟨mem_mention.1, fun t ht => by
    have : t = s := by simpa [AExpr.names] using ht
    subst this; exact mem_mention.2⟩
  | .pcRel a b, l => by
    refine ⟨fun x hx => (mem_write b).1 x ((mem_write a).1 x hx), fun s hs => ?_⟩
    rcases List.mem_append.1 hs with hs | hs
    · obtain ⟨y, hy⟩ := (mem_write a (l := l)).2 s hs
      exact ⟨y, (mem_write b).1 _ hy⟩
    · exact (mem_write b).2 s hs
  | .parens _ e, _ => mem_write e
  | .bin _ _ a b, l => by
    refine ⟨fun x hx => (mem_write b).1 x ((mem_write a).1 x hx), fun s hs => ?_⟩
    rcases List.mem_append.1 hs with hs | hs
    · obtain ⟨y, hy⟩ := (mem_write a (l := l)).2 s hs
      exact ⟨y, (mem_write b).1 _ hy⟩
    · exact (mem_write b).2 s hs
  | .un _ _ e, _ => mem_write e
  | .bit _ e, _ => mem_write e

/-- Every symbol that the section uses has a number, the place of its entry. -/
theorem ids_entry {s : Nat} (hs : M.Uses k s) : ∃ y, (M.symbols k)[M.ids k s]? = some (s, y) := by
  have hmem : ∀ (es : List AExpr) (l : List (Nat × Object.Symbol)), (∀ x ∈ l, x ∈ es.foldl (M.writeSymbols k) l) ∧
      ∀ e ∈ es, ∀ s ∈ e.names, ∃ y, (s, y) ∈ es.foldl (M.writeSymbols k) l := by
    intro es
    induction es with
    | nil => intro l; exact ⟨fun _ h => h, fun _ h => by cases h⟩
    | cons e es ih =>
      intro l
      refine ⟨fun x hx => (ih _).1 x ((mem_write e).1 x hx), ?_⟩
      intro e' he' s hs
      rcases List.mem_cons.1 he' with rfl | he'
      · obtain ⟨y, hy⟩ := (mem_write e' (l := l)).2 s hs
        exact ⟨y, (ih _).1 _ hy⟩
      · exact (ih _).2 e' he' s hs
  obtain ⟨e, he, hs⟩ := hs
  obtain ⟨y, hy⟩ := (hmem (M.expressions k) (M.flagged k)).2 e he s hs
  unfold Module.ids
  cases hf : (M.symbols k).findIdx? (fun x => x.1 == s) with
  | none =>
    have := List.findIdx?_eq_none_iff.1 hf (s, y) hy
    simp at this
  | some n =>
    obtain ⟨hn, h1, -⟩ := List.findIdx?_eq_some_iff_getElem.1 hf
    simp only
    rw [List.getElem?_eq_getElem hn]
    have : ((M.symbols k)[n]).1 = s := by simpa using h1
    exact ⟨((M.symbols k)[n]).2, by rw [← this]⟩

end

section
variable {mods : List Module} {base : Nat → Nat → Int} {secs : List Resolve.Sect} {origin : Nat → Nat × Option Nat} {ρ : Nat → Den}
  {lnk : Slot → Outcome Res}

theorem read_at {l : List (Nat × Object.Symbol)} {ys : List Resolve.Sym} (h : ys.map some = l.map fun x => readSymbol x.2) {n : Nat}
    {y : Resolve.Sym} (hy : ys[n]? = some y) : ∃ x, l[n]? = some x ∧ readSymbol x.2 = some y := by
  have h1 := congrArg (·[n]?) h
  simp only [List.getElem?_map, hy, Option.map_some] at h1
  obtain ⟨x, h2, h3⟩ := Option.map_eq_some_iff.1 h1.symm
  exact ⟨x, h2, h3⟩

theorem read_type {x : Object.Symbol} {y : Resolve.Sym} (h : readSymbol x = some y) :
    y.name = x.name ∧ y.value = toI32 x.value ∧ symType x.type = some y.type := by
  obtain ⟨t, h1, rfl⟩ := Option.map_eq_some_iff.1 h
  exact ⟨rfl, rfl, h1⟩

/-- A symbol that is defined where it is: the symbol of the program, and its value. -/
structure Origin (mods : List Module) (origin : Nat → Nat × Option Nat) (ρ : Nat → Den) (S : Resolve.Sect) (z : Slot) (w : Resolve.Sym)
    (v : Int) (M : Module) (t : Nat) : Prop where
  from_ : mods[(origin z.1).1]? = some M
  name : w.name = M.name t
  value : (ρ (origin z.1).1).sym t = some v
  range : I32 v
  file : S.fileId = (origin z.1).1
  exported : w.type = .exported → M.exported t = true
  provides : w.type ≠ .local → M.Provides t
  bank : S.bank ≠ -1 → (ρ (origin z.1).1).bank t = some S.bank
  slot : ∀ k, (origin z.1).2 = some k → ∃ y, (M.symbols k)[z.2]? = some (t, y)
  absolute : S.loc ≠ -1 ∨ S.equ = true

theorem own_origin (hl : Linking mods base secs origin) (ha : Agree mods secs origin ρ)
    (hg : ∀ (i : Nat) (M : Module), mods[i]? = some M → M.Good (base i) (ρ i)) {z : Slot} {S : Resolve.Sect} {w : Resolve.Sym} (hz : Resolve.At secs z S w)
    (hw : Own w.type) : ∃ M t, Origin mods origin ρ S z w (w.value + S.base) M t := by
  obtain ⟨hS, hw'⟩ := hz
  obtain ⟨M, hM, hf⟩ := hl.source _ _ hS
  have hgood := hg _ _ hM
  cases hk : (origin z.1).2 with
  | some k =>
    obtain ⟨h1, h2, h3⟩ := hl.placed _ _ _ _ hS hM hk
    obtain ⟨⟨t, y⟩, h4, h5⟩ := read_at h3 hw'
    obtain ⟨h6, h7, h8⟩ := read_type h5
    have he := entered_all _ (List.mem_of_getElem? h4)
    rcases he.kind with ⟨k1, k2, k3⟩ | ⟨-, -, k3⟩ | ⟨-, -, k3, -⟩
    · simp only at k1 k2 k3
      obtain ⟨l1, l2⟩ := hgood.label t k k1
      have hv : w.value + S.base = base (origin z.1).1 k + (M.sym t).value := by
        rw [h7]
        simp only [k2, Expr.toI32_u32 l2, Resolve.Sect.base, h1]
        omega
      obtain ⟨p1, p2⟩ := hgood.places.placed t k (by show (M.sym t).type.reloc = true; rw [l1]; rfl) k1
      refine ⟨M, t, hM, by rw [h6]; exact he.name, by rw [hv]; exact p1, by rw [hv]; exact p2, hf, ?_, ?_, ?_, ?_, .inl h2⟩
      · intro h
        rw [h] at h8
        rcases k3 with ⟨-, k3⟩ | ⟨k3, -⟩ | k3
        · exact k3
        · rw [k3] at h8; cases h8
        · rw [k3] at h8; cases h8
      · intro h
        rcases k3 with ⟨-, k3⟩ | ⟨-, k3⟩ | k3
        · exact .inl ⟨.inl k3, k, k1⟩
        · exact .inl ⟨.inr k3, k, k1⟩
        · rw [k3] at h8; exact absurd (Option.some.inj h8).symm h
      · intro h
        exact ha.banks _ _ _ _ _ hS hM hk k1 h
      · intro k' hk'
        rw [hk] at hk'
        cases hk'
        exact ⟨y, h4⟩
    · simp only at k3
      rw [k3] at h8
      rcases hw with hw | hw | hw <;> rw [hw] at h8 <;> cases h8
    · simp only at k3
      rw [k3] at h8
      rcases hw with hw | hw | hw <;> rw [hw] at h8 <;> cases h8
  | none =>
    obtain ⟨h1, h2, h2', h3⟩ := hl.constants _ _ _ hS hM hk
    obtain ⟨⟨t, y⟩, h4, h5⟩ := read_at h3 hw'
    obtain ⟨h6, h7, h8⟩ := read_type h5
    obtain ⟨t', ht', e⟩ := List.mem_map.1 (List.mem_of_getElem? h4)
    cases e
    have h9 := (List.mem_filter.1 ht').2
    simp only [Bool.and_eq_true, decide_eq_true_eq] at h9
    have hc : (M.sym t).type.constant = true := by rcases h9.1 with h | h <;> rw [h] <;> rfl
    obtain ⟨p1, p2⟩ := hgood.places.constant t hc
    have hv : w.value + S.base = (M.sym t).value := by
      rw [h7]
      have : (M.entry t 0).value = Expr.u32 (M.sym t).value := rfl
      rw [this, Expr.toI32_u32 (v := (M.sym t).value) p2, Resolve.Sect.base, if_pos h2]
      omega
    refine ⟨M, t, hM, h6, by rw [hv]; exact p1, by rw [hv]; exact p2, hf, fun _ => h9.2, fun _ => .inr ⟨h9.2, h9.1⟩, ?_, ?_, .inr h1⟩
    · intro h; exact absurd h2' h
    · intro k' hk'; rw [hk] at hk'; cases hk'

/-- What a symbol of the linker stands for. -/
theorem means_origin (hl : Linking mods base secs origin) (ha : Agree mods secs origin ρ)
    (hg : ∀ (i : Nat) (M : Module), mods[i]? = some M → M.Good (base i) (ρ i)) (hd : ∀ (i : Nat) (M : Module), mods[i]? = some M → M.Distinct) {j id k : Nat} {S : Resolve.Sect}
    {y : Resolve.Sym} {M : Module} {r : Res} (hj : Resolve.At secs (j, id) S y) (hM : mods[(origin j).1]? = some M) (hk : (origin j).2 = some k)
    (hr : Means secs lnk (j, id) r) :
    I32 r.value ∧ ∃ n T, r.sect = some n ∧ secs[n]? = some T ∧ (T.loc ≠ -1 ∨ T.equ = true) ∧
      ∀ s, M.Uses k s → M.ids k s = id →
        (ρ (origin j).1).sym s = some r.value ∧ (T.bank ≠ -1 → (ρ (origin j).1).bank s = some T.bank) := by
  obtain ⟨h1, h2, h3⟩ := hl.placed _ _ _ _ hj.1 hM hk
  obtain ⟨⟨t, e⟩, h4, h5⟩ := read_at h3 hj.2
  obtain ⟨h6, h7, h8⟩ := read_type h5
  have he := entered_all _ (List.mem_of_getElem? h4)
  have hsame : ∀ s, M.Uses k s → M.ids k s = id → s = t := by
    intro s hs hid
    obtain ⟨y', hy'⟩ := ids_entry hs
    rw [hid, h4] at hy'
    cases hy'
    rfl
  have hexp : ∀ {z : Slot} {T : Resolve.Sect} {w : Resolve.Sym} {q : Res}, Resolve.At secs z T w → Own w.type → Means secs lnk z q →
      q = ⟨w.value + T.base, some z.1⟩ := by
    intro z T w q hz hw hq
    cases hq with
    | own h ht => obtain ⟨rfl, rfl⟩ := Resolve.at_inj hz h; rfl
    | imported h ht => obtain ⟨rfl, rfl⟩ := Resolve.at_inj hz h; rcases hw with hw | hw | hw <;> simp [hw] at ht
    | localImport h ht => obtain ⟨rfl, rfl⟩ := Resolve.at_inj hz h; rcases hw with hw | hw | hw <;> simp [hw] at ht
    | linker h ht => obtain ⟨rfl, rfl⟩ := Resolve.at_inj hz h; rcases hw with hw | hw | hw <;> simp [hw] at ht
  have hnl : ∀ {z : Slot} {T : Resolve.Sect} {w : Resolve.Sym}, Resolve.At secs z T w → w.type ≠ .linker := by
    intro z T w hz hw
    obtain ⟨N, hN, -⟩ := hl.source _ _ hz.1
    have : ∃ n, symType n = some w.type := by
      cases ho : (origin z.1).2 with
      | some k' =>
        obtain ⟨x, -, hx⟩ := read_at (hl.placed _ _ _ _ hz.1 hN ho).2.2 hz.2
        exact ⟨_, (read_type hx).2.2⟩
      | none =>
        obtain ⟨x, -, hx⟩ := read_at (hl.constants _ _ _ hz.1 hN ho).2.2.2 hz.2
        exact ⟨_, (read_type hx).2.2⟩
    obtain ⟨n, hn⟩ := this
    rw [hw] at hn
    unfold symType at hn
    split at hn <;> cases hn
  cases hr with
  | own h ht =>
    obtain ⟨rfl, rfl⟩ := Resolve.at_inj hj h
    obtain ⟨N, t', o⟩ := own_origin hl ha hg hj ht
    have hNM : N = M := by have := o.from_; rw [hM] at this; exact (Option.some.inj this).symm
    subst hNM
    refine ⟨o.range, j, S, rfl, hj.1, o.absolute, ?_⟩
    intro s hs hid
    obtain ⟨y', hy'⟩ := o.slot k hk
    simp only at hy'
    rw [h4] at hy'
    cases hy'
    rw [hsame s hs hid]
    exact ⟨o.value, o.bank⟩
  | @imported _ z _ T _ w q h ht hz hgl hq =>
    obtain ⟨rfl, rfl⟩ := Resolve.at_inj hj h
    have hwt : w.type = .exported := by
      rcases hgl.2.1 with hw | hw
      · exact hw
      · exact absurd hw (hnl hz)
    obtain rfl := hexp hz (.inl hwt) hq
    obtain ⟨N, t', o⟩ := own_origin hl ha hg hz (.inl hwt)
    refine ⟨o.range, z.1, T, rfl, hz.1, o.absolute, ?_⟩
    intro s hs hid
    rw [hsame s hs hid]
    have himp : M.Import t := by
      rcases he.kind with ⟨-, -, k3⟩ | ⟨-, k2, -⟩ | ⟨-, -, k3, -⟩
      · simp only at k3
        rw [ht] at h8
        rcases k3 with ⟨k3, -⟩ | ⟨k3, -⟩ | k3 <;> rw [k3] at h8 <;> cases h8
      · exact k2
      · simp only at k3
        rw [ht, k3] at h8; cases h8
    have hname : N.name t' = M.name t := by
      rw [← o.name, hgl.2.2, h6]
      exact he.name
    obtain ⟨a1, a2⟩ := ha.imports _ _ _ _ _ _ hM o.from_ himp (o.exported hwt) (o.provides (by rw [hwt]; decide)) hname
    exact ⟨by rw [a1]; exact o.value, fun hb => by rw [a2]; exact o.bank hb⟩
  | @localImport _ z _ T _ w q h ht hz hgl hq =>
    obtain ⟨rfl, rfl⟩ := Resolve.at_inj hj h
    have hwt : w.type = .localExport ∨ w.type = .exported := by
      rcases hgl.2.2.1 with hw | hw | hw
      · exact .inl hw
      · exact .inr hw
      · exact absurd hw (hnl hz)
    have hown : Own w.type := by rcases hwt with h | h <;> simp [Own, h]
    obtain rfl := hexp hz hown hq
    obtain ⟨N, t', o⟩ := own_origin hl ha hg hz hown
    refine ⟨o.range, z.1, T, rfl, hz.1, o.absolute, ?_⟩
    intro s hs hid
    rw [hsame s hs hid]
    obtain ⟨M', hM', hf⟩ := hl.source _ _ hj.1
    have hfile : (origin z.1).1 = (origin j).1 := by rw [← o.file, hgl.2.1, hf]
    have hNM : N = M := by have := o.from_; rw [hfile, hM] at this; exact (Option.some.inj this).symm
    subst hNM
    have hother : (N.sym t).sect ≠ some k ∧ ¬ N.Import t ∧ N.Uses k t := by
      rcases he.kind with ⟨-, -, k3⟩ | ⟨-, -, k3⟩ | ⟨k1, k2, -, k4⟩
      · simp only at k3
        rw [ht] at h8
        rcases k3 with ⟨k3, -⟩ | ⟨k3, -⟩ | k3 <;> rw [k3] at h8 <;> cases h8
      · simp only at k3
        rw [ht, k3] at h8; cases h8
      · exact ⟨k1, k2, k4⟩
    have hname : N.name t' = N.name t := by
      rw [← o.name, hgl.2.2.2, h6]
      exact he.name
    have htt := hd _ _ hM k t t' hother.2.2 hother.1 hother.2.1 (o.provides (by rcases hwt with h | h <;> rw [h] <;> decide)) hname
    subst htt
    have o1 := o.value
    have o2 := o.bank
    rw [hfile] at o1 o2
    exact ⟨o1, o2⟩
  | linker h ht =>
    exact absurd ht (hnl h)

theorem touch_means {st st' : Resolve.State} (hs : Sound secs lnk st) {x : Slot} {S : Resolve.Sect} {y : Resolve.Sym} (hx : Resolve.At secs x S y)
    (h : Resolve.touch secs lnk false st x = .ok st') : ∃ r, st' x = some r ∧ Means secs lnk x r := by
  have h1 : Resolve.touchAll secs lnk [(x, false)] st = .ok st' := by
    simp only [Resolve.touchAll, h, Outcome.ok_bind]
  rcases Resolve.touchAll_resolves h1 x false (by simp) S y hx with h2 | h2
  · obtain ⟨r, hr⟩ := Option.isSome_iff_exists.1 h2
    exact ⟨r, hr, Resolve.touch_sound hs h x r hr⟩
  · simp at h2

theorem symbol_ok {st : Resolve.State} (hs : Sound secs lnk st) {j id : Nat} {loc : Int} {pr : Int → Int → Outcome Int} {e : Expr.Entry}
    (h0 : (linkEnv secs lnk st j loc pr).symbol id = .ok e) : ∃ S y r, Resolve.At secs (j, id) S y ∧ Means secs lnk (j, id) r ∧
      ∀ n T, r.sect = some n → secs[n]? = some T → (T.loc ≠ -1 ∨ T.equ = true) → e = ⟨none, r.value⟩ := by
  obtain ⟨⟨e', st'⟩, h, he⟩ := Outcome.bind_ok.1 h0
  cases he
  unfold Resolve.lookup at h
  cases hS : secs[j]? with
  | none => rw [hS] at h; cases h
  | some S =>
    rw [hS] at h
    simp only at h
    cases hy : S.symbols[id]? with
    | none => rw [hy] at h; cases h
    | some y =>
      rw [hy] at h
      simp only at h
      obtain ⟨st1, ht, h⟩ := Outcome.bind_ok.1 h
      obtain ⟨r, hr, hm⟩ := touch_means hs (S := S) (y := y) ⟨hS, hy⟩ ht
      refine ⟨S, y, r, ⟨hS, hy⟩, hm, ?_⟩
      intro n T hn hT hp
      rw [hr] at h
      simp only [hn, Option.bind_some, hT, if_pos hp] at h
      cases h
      rfl

theorem bank_ok {st : Resolve.State} (hs : Sound secs lnk st) {j id : Nat} {loc : Int} {pr : Int → Int → Outcome Int} {v : Int}
    (h0 : (linkEnv secs lnk st j loc pr).bank id = .ok (some v)) : ∃ n T, secs[n]? = some T ∧ T.bank ≠ -1 ∧ v = T.bank ∧
      ∀ S y, Resolve.At secs (j, id) S y → ∃ r, Means secs lnk (j, id) r ∧ r.sect = some n := by
  obtain ⟨⟨b, st'⟩, h, he⟩ := Outcome.bind_ok.1 h0
  simp only [Outcome.ok.injEq] at he
  subst he
  unfold Resolve.lookupBank at h
  obtain ⟨st1, ht, h⟩ := Outcome.bind_ok.1 h
  cases hn : (st1 (j, id)).bind (·.sect) with
  | none => rw [hn] at h; cases h
  | some n =>
    rw [hn] at h
    simp only at h
    cases hT : secs[n]? with
    | none => rw [hT] at h; cases h
    | some T =>
      rw [hT] at h
      simp only at h
      by_cases hb : T.bank ≠ -1
      · rw [if_pos hb] at h
        cases h
        refine ⟨n, T, hT, hb, rfl, ?_⟩
        intro S y hx
        obtain ⟨r, hr, hm⟩ := touch_means hs hx ht
        rw [hr] at hn
        exact ⟨r, hm, hn⟩
      · rw [if_neg hb] at h
        cases h

end

/-- C62: after the symbols have been resolved, in whatever order, the symbols of every section of every program stand for their
addresses, and what is imported for what is exported. -/
theorem C62_linked (mods : List Module) (base : Nat → Nat → Int) (ρ : Nat → Den) (secs : List Resolve.Sect) (origin : Nat → Nat × Option Nat)
    (hl : Linking mods base secs origin) (ha : Agree mods secs origin ρ) (hg : ∀ (i : Nat) (M : Module), mods[i]? = some M → M.Good (base i) (ρ i))
    (hd : ∀ (i : Nat) (M : Module), mods[i]? = some M → M.Distinct) (lnk : Slot → Outcome Res) (xs : List (Slot × Bool)) (st : Resolve.State)
    (hst : Resolve.touchAll secs lnk xs Resolve.start = .ok st) (property : Int → Int → Outcome Int)
    (hp : ∀ a b v, property a b = .ok v → I32 v) (j k : Nat) (S : Resolve.Sect) (M : Module) (hj : secs[j]? = some S)
    (hM : mods[(origin j).1]? = some M) (hk : (origin j).2 = some k) (hsmall : (M.symbols k).length ≤ 4294967296) :
    Linked (M.Uses k) (M.ids k) (linkEnv secs lnk st j S.loc property) (base (origin j).1 k) (ρ (origin j).1) := by
  have hs : Sound secs lnk st := Resolve.touchAll_sound (by intro z q hq; cases hq) hst
  obtain ⟨h1, h2, h3⟩ := hl.placed _ _ _ _ hj hM hk
  have hat : ∀ s, M.Uses k s → ∃ y, Resolve.At secs (j, M.ids k s) S y := by
    intro s hu
    obtain ⟨e, he⟩ := ids_entry hu
    have := congrArg (·[M.ids k s]?) h3
    simp only [List.getElem?_map, he, Option.map_some] at this
    obtain ⟨y, hy, -⟩ := Option.map_eq_some_iff.1 this
    exact ⟨y, hj, hy⟩
  refine ⟨?_, ?_⟩
  · intro s hu
    obtain ⟨e, he⟩ := ids_entry hu
    have := (List.getElem?_eq_some_iff.1 he).1
    omega
  · have habs : ∀ id e, (linkEnv secs lnk st j S.loc property).symbol id = .ok e → e.sym = none ∧ I32 e.value ∧
        ∀ s, M.Uses k s → M.ids k s = id → (ρ (origin j).1).sym s = some e.value := by
      intro id e h
      obtain ⟨S', y, r, hx, hm, he⟩ := symbol_ok hs h
      obtain ⟨m1, n, T, m2, m3, m4, m5⟩ := means_origin hl ha hg hd hx hM hk hm
      have := he n T m2 m3 m4
      subst this
      exact ⟨rfl, m1, fun s hu hid => (m5 s hu hid).1⟩
    refine ⟨{ sym := fun id => match (linkEnv secs lnk st j S.loc property).symbol id with | .ok e => some e.value | _ => none
              bank := fun id => match (linkEnv secs lnk st j S.loc property).bank id with | .ok b => b | _ => none
              group := fun a b => match property a b with | .ok v => some v | _ => none
              pc := 0 }, ?_, ?_, ?_⟩
    · intro s hu v hv
      simp only at hv
      split at hv
      · rename_i e he
        cases hv
        exact (habs _ e he).2.2 s hu rfl
      · cases hv
    · intro s hu v hv
      simp only at hv
      split at hv
      · rename_i b hb
        subst hv
        obtain ⟨y, hx⟩ := hat s hu
        obtain ⟨n, T, b3, b4, rfl, b5⟩ := bank_ok hs hb
        obtain ⟨r, b1, b2⟩ := b5 S y hx
        obtain ⟨-, n', T', m2, m3, -, m5⟩ := means_origin hl ha hg hd hx hM hk b1
        rw [b2] at m2
        cases m2
        rw [b3] at m3
        cases m3
        exact (m5 s hu rfl).2 b4
      · cases hv
    · intro o
      refine ⟨?_, ?_, ?_, ?_, ?_, ?_, ?_, ?_⟩
      · intro id v
        show (linkEnv secs lnk st j S.loc property).symbol id = _ ↔ (match (linkEnv secs lnk st j S.loc property).symbol id with | .ok e => some e.value | _ => none) = _
        cases he : (linkEnv secs lnk st j S.loc property).symbol id with
        | ok e =>
          have := (habs id e he).1
          obtain ⟨es, ev⟩ := e
          simp only at this
          subst this
          simp
        | fail => simp
        | ub => simp
      · intro id e he
        exact (habs id e he).1
      · intro id v
        show (linkEnv secs lnk st j S.loc property).bank id = _ ↔ (match (linkEnv secs lnk st j S.loc property).bank id with | .ok b => b | _ => none) = _
        cases he : (linkEnv secs lnk st j S.loc property).bank id <;> simp
      · intro a b v
        show property a b = _ ↔ (match property a b with | .ok v => some v | _ => none) = _
        cases property a b <;> simp
      · show base (origin j).1 k + (o : Int) = S.loc + o
        rw [h1]
      · intro id v hv
        simp only at hv
        split at hv
        · rename_i e he
          cases hv
          exact (habs _ e he).2.1
        · cases hv
      · intro id v hv
        simp only at hv
        split at hv
        · rename_i b hb
          subst hv
          obtain ⟨n, T, b3, -, rfl, -⟩ := bank_ok hs hb
          exact hl.banks n T b3
        · cases hv
      · intro a b v hv
        simp only at hv
        split at hv
        · rename_i w hw
          cases hv
          exact hp _ _ _ hw
        · cases hv

end Verif.Program
