import Verif.Layout.Lines
/-!
# C25: memory layout files mean what they say
-/
namespace Verif.Layout
open Verif.Config (Format)
open Verif.Assign (Pool MGroup)

/-- C25 for expressions: the words of an expression, with any blanks between them and followed by something that is not
an operator, are read as the expression's value. What follows is left for the caller. `@` can be used where it has a
value. -/
theorem C25_expression (ctx : Ctx) (i : Option Nat) (hi : ∀ k, i = some k → ctx.index = some k ∧ k < W32) (e : LExpr) (n : Nat)
    (he : e.Is i n) (s : List Char) (ts : List (List Char)) (hs : Spells (e.words ++ ts) s)
    (hn : ∀ op ∈ [['+'], ['-'], ['*'], ['/']], ts.head? ≠ some op) :
    ∃ st, parseExpression ctx (nextToken s) = .ok (some n, st) ∧ st.tok = ts.headD [] ∧ Spells ts.tail st.rest := by
  obtain ⟨st, h1, h2⟩ := parseExpression_words ctx i hi he (at_next hs)
    ⟨hn _ (by simp), hn _ (by simp), hn _ (by simp), hn _ (by simp)⟩
  exact ⟨st, h2, h1.tok_eq, by cases h1 <;> assumption⟩

/-- C25: as long as numbers and intermediate results are small, the value of an expression is its ordinary value. -/
theorem C25_ordinary_value (i : Nat) (e : LExpr) (hg : e.Grammatical) (hd : e.depth ≤ 256) (hs : e.Small i) (v : Int)
    (hv : e.exact i = some v) : ∃ n, e.Is (some i) n ∧ (n : Int) = v % 4294967296 := by
  obtain ⟨h1, h2, h3⟩ := value_of_small i e hs v hv
  exact ⟨unsigned v, ⟨hg, hd, v, h1, rfl⟩, by unfold unsigned; omega⟩

/-- C25: without divisions, whatever value an expression has, it is the ordinary one modulo `2^32`, for numbers of any
size. -/
theorem C25_modulo (i : Nat) (e : LExpr) (hd : e.NoDivision) (n : Nat) (hn : e.Is (some i) n) :
    ∃ w, e.exact i = some w ∧ (n : Int) = w % 4294967296 := by
  obtain ⟨_, _, v, hv, rfl⟩ := hn
  obtain ⟨w, hw, hm⟩ := value_mod i e hd v hv
  exact ⟨w, hw, by unfold unsigned; omega⟩

theorem directive_tracks {l : Layout} {m m' : Machine} {d : Directive} (h : Tracks l m) (hd : Defines m d m') {line : List Char}
    (hs : Spells d.words line) : ∃ l', parseLine l line = .ok l' ∧ Tracks l' m' := by
  have ha := at_next hs
  have close : ∀ {o : Outcome (Layout × St)} {l' : Layout} {st' : St} {k : List Char}, (nextToken line).tok = k → k ≠ [] →
      parseDirective l (nextToken line) = o → At st' [] → o = .ok (l', st') → Tracks l' m' →
      ∃ l', parseLine l line = .ok l' ∧ Tracks l' m' := by
    intro o l' st' k h1 h2 h3 h4 h5 h6
    refine ⟨l', ?_, h6⟩
    rw [parseLine]
    rw [if_neg (by rw [h1]; exact h2), h3, h5]
    show (if st'.tok = [] then _ else _) = _
    rw [if_pos h4.tok_nil]
  cases hd with
  | pool name p q hw hn hq =>
    have ha : At (nextToken line) ("POOL".toList :: name :: p.words) := ha
    obtain ⟨l', st', h1, h2, h3⟩ := parsePoolDirective_words h hw hn hq ha.next
    refine close ha.tok (by decide) ?_ h1 h2 h3
    rw [parseDirective, if_pos ha.tok]
  | pools name first last p a b qs hw hn hf hl hab hb hc hlen hq =>
    have ha : At (nextToken line) ("POOLS".toList :: (name :: ['['] :: first.words ++ [':'] :: last.words ++ [']'] :: p.words)) := ha
    obtain ⟨l', st', h1, h2, h3⟩ := parsePoolsDirective_words h hw hn hf hl hab hb hc hlen hq ha.next
    refine close ha.tok (by decide) ?_ h1 h2 h3
    rw [parseDirective, if_neg (by rw [ha.tok]; decide), if_pos ha.tok]
  | group name kind ps hw hlen hk hne hp =>
    have ha : At (nextToken line) ("GROUP".toList :: (name :: colonWords (kind.map ([·])) ++ ps)) := ha
    obtain ⟨l', st', h1, h2, h3⟩ := parseGroupDirective_words h hlen hne hp ha.next
    refine close ha.tok (by decide) ?_ h1 h2 h3
    rw [parseDirective, if_neg (by rw [ha.tok]; decide), if_neg (by rw [ha.tok]; decide), if_pos ha.tok]
  | symbol name e v hw hlen hg hdep hv =>
    have ha : At (nextToken line) ("SYMBOL".toList :: name :: e.words) := ha
    obtain ⟨l', st', h1, h2, h3⟩ := parseSymbolDirective_number h hlen hg hdep hv ha.next
    refine close ha.tok (by decide) ?_ h1 h2 h3
    rw [parseDirective, if_neg (by rw [ha.tok]; decide), if_neg (by rw [ha.tok]; decide), if_neg (by rw [ha.tok]; decide),
      if_pos ha.tok]
  | groupStart name g i hw hlen hg hc hi hlt =>
    have ha : At (nextToken line) ["SYMBOL".toList, name, g, ['.'], "start".toList] := ha
    obtain ⟨l', st', h1, h2, h3⟩ := parseSymbolDirective_group h hlen hg hc hi hlt (.inl ⟨rfl, rfl, rfl⟩) ha.next
    refine close ha.tok (by decide) ?_ h1 h2 h3
    rw [parseDirective, if_neg (by rw [ha.tok]; decide), if_neg (by rw [ha.tok]; decide), if_neg (by rw [ha.tok]; decide),
      if_pos ha.tok]
  | groupSize name g i hw hlen hg hc hi hlt =>
    have ha : At (nextToken line) ["SYMBOL".toList, name, g, ['.'], "size".toList] := ha
    obtain ⟨l', st', h1, h2, h3⟩ := parseSymbolDirective_group h hlen hg hc hi hlt (.inr ⟨rfl, rfl, rfl⟩) ha.next
    refine close ha.tok (by decide) ?_ h1 h2 h3
    rw [parseDirective, if_neg (by rw [ha.tok]; decide), if_neg (by rw [ha.tok]; decide), if_neg (by rw [ha.tok]; decide),
      if_pos ha.tok]
  | formats fs gs hne hf =>
    have ha : At (nextToken line) ("FORMATS".toList :: fs) := ha
    obtain ⟨l', st', h1, h2, h3⟩ := parseFormatsDirective_words h hne hf ha.next
    refine close ha.tok (by decide) ?_ h1 h2 h3
    rw [parseDirective, if_neg (by rw [ha.tok]; decide), if_neg (by rw [ha.tok]; decide), if_neg (by rw [ha.tok]; decide),
      if_neg (by rw [ha.tok]; decide), if_pos ha.tok]
  | formatsCbm fs gs e n hf he =>
    have ha : At (nextToken line) ("FORMATS".toList :: (fs ++ "CBM_PRG".toList :: ['['] :: e.words ++ [[']']])) := by
      simpa [Directive.words] using ha
    obtain ⟨l', st', h1, h2, h3⟩ := parseFormatsDirective_cbm h hf he ha.next
    refine close ha.tok (by decide) ?_ h1 h2 h3
    rw [parseDirective, if_neg (by rw [ha.tok]; decide), if_neg (by rw [ha.tok]; decide), if_neg (by rw [ha.tok]; decide),
      if_neg (by rw [ha.tok]; decide), if_pos ha.tok]

theorem file_tracks {m m' : Machine} {lines : List (List Char)} (hf : File m lines m') : ∀ l, Tracks l m →
    ∃ l', readLines l lines = .ok l' ∧ Tracks l' m' := by
  induction hf with
  | done m => intro l h; exact ⟨l, by rw [readLines], h⟩
  | empty m m' line lines hs _ ih =>
    intro l h
    obtain ⟨l', h1, h2⟩ := ih l h
    refine ⟨l', ?_, h2⟩
    rw [readLines, parseLine, if_pos (at_next hs).tok_nil]
    exact h1
  | line m m₁ m₂ d line lines hs hd _ ih =>
    intro l h
    obtain ⟨l₁, h1, h2⟩ := directive_tracks h hd hs
    obtain ⟨l₂, h3, h4⟩ := ih l₁ h2
    exact ⟨l₂, by rw [readLines, h1]; exact h3, h4⟩

theorem tracks_empty : Tracks {} Machine.empty where
  pools := rfl
  groups := rfl
  symbols := ⟨rfl, fun k s t h => by simp at h⟩
  formats := rfl
  header := rfl
  map name := rfl
  known g hg := by cases hg
  words p hp := by cases hp

/-- C25 for files: a file whose lines define the machine `m` sets up the linker as `m` says. Every such file must name
a format. -/
theorem C25_file (lines : List (List Char)) (m : Machine) (h : File Machine.empty lines m) (hf : m.formats ≠ []) :
    ∃ l, read lines = .ok l ∧ Represents l m := by
  obtain ⟨l, h1, h2⟩ := file_tracks h {} tracks_empty
  refine ⟨l, ?_, h2.toRepresents⟩
  rw [read, h1]
  simp only [Outcome.bind]
  rw [if_neg (by rw [h2.formats]; exact hf)]

/-- C25: parsing an expression ends, whatever the text is. -/
theorem C25_expression_terminates (ctx : Ctx) (st : St) : ∃ n, parse1 ctx n st ≠ .ub := ⟨_, parse1_total ctx st⟩

/-- C25: a file that names no format is refused. -/
theorem C25_formats_required (lines : List (List Char)) (l : Layout) (h : read lines = .ok l) : l.formats ≠ [] := by
  rw [read] at h
  cases hr : readLines {} lines with
  | ok l' =>
    rw [hr] at h
    simp only [Outcome.bind] at h
    by_cases hf : l'.formats = []
    · rw [if_pos hf] at h; cases h
    · rw [if_neg hf] at h; cases h; exact hf
  | fail => rw [hr] at h; cases h
  | ub => rw [hr] at h; cases h

/-- C25: the positions that a group refers to are those of the pools with the name it was given. -/
theorem C25_pools_of_groups (l : Layout) (m : Machine) (h : Represents l m) (name : List Char) (ps : List Nat)
    (hp : m.positions name = some ps) : ∃ x ∈ m.pools, x.1 = name ∧ ps.map (l.pools[·]?) = x.2.map some := by
  rw [Machine.positions] at hp
  cases hk : m.pools.findIdx? (fun x => x.1 == name) with
  | none => rw [hk] at hp; simp at hp
  | some k =>
    cases hx : m.pools.find? (fun x => x.1 == name) with
    | none => rw [hk, hx] at hp; simp at hp
    | some x =>
      rw [hk, hx] at hp
      have hp : List.range' ((m.pools.take k).map (·.2.length)).sum x.2.length = ps := Option.some.inj hp
      have hname : x.1 = name := by simpa using List.find?_some hx
      refine ⟨x, List.mem_of_find?_eq_some hx, hname, ?_⟩
      obtain ⟨hlt, h1, h2⟩ := List.findIdx?_eq_some_iff_getElem.1 hk
      have hget : m.pools[k] = x := by
        have := List.find?_eq_some_iff_getElem.1 hx
        obtain ⟨h3, j, hj, h4, h5⟩ := this
        have hjk : j = k := by
          apply Nat.le_antisymm
          · refine Nat.le_of_not_lt fun h => ?_
            have := h5 k h
            rw [h1] at this
            exact absurd this (by simp)
          · refine Nat.le_of_not_lt fun h => ?_
            have := h2 j h
            rw [h4] at this
            exact this h3
        subst hjk
        exact h4
      have hsplit : m.pools = m.pools.take k ++ x :: m.pools.drop (k + 1) := by
        rw [← hget, List.getElem_cons_drop, List.take_append_drop]
      have hpools : l.pools = (m.pools.take k).flatMap (·.2) ++ (x.2 ++ (m.pools.drop (k + 1)).flatMap (·.2)) := by
        have := congrArg (List.flatMap (·.2)) hsplit
        rw [List.flatMap_append, List.flatMap_cons] at this
        rw [h.pools, this]
      have hlen : ((m.pools.take k).map (·.2.length)).sum = ((m.pools.take k).flatMap (·.2)).length :=
        (List.length_flatMap).symm
      rw [← hp, hlen, hpools]
      generalize (m.pools.take k).flatMap (·.2) = a
      generalize (m.pools.drop (k + 1)).flatMap (·.2) = b
      apply List.ext_getElem?
      intro j
      rw [List.getElem?_map, List.getElem?_map]
      by_cases hj : j < x.2.length
      · rw [List.getElem?_range' (by omega)]
        simp only [Option.map_some, Nat.one_mul]
        rw [List.getElem?_append_right (by omega), Nat.add_sub_cancel_left, List.getElem?_append_left hj]
        rw [List.getElem?_eq_getElem hj]
        rfl
      · rw [List.getElem?_eq_none (by simpa using Nat.le_of_not_lt hj), List.getElem?_eq_none (Nat.le_of_not_lt hj)]
        rfl

/-! ## Examples -/

/-- A check for lines that are written out. -/
def spelled : List (List Char) → List Char → Bool
  | [], s => match s.dropWhile (fun c => c = ' ' ∨ c = '\t') with
      | [] => true
      | c :: _ => c = ';'
  | t :: ts, s =>
      let s := s.dropWhile fun c => c = ' ' ∨ c = '\t'
      let r := s.drop t.length
      decide (t ++ r = s) &&
      (decide (t.length = 1 ∧ ∀ c ∈ t, c ∈ "$%+-*/()[]:@,.".toList) ||
        decide (Word t) && decide (∀ c ∈ r.head?, Separator c)) && spelled ts r

theorem blanks_takeWhile (s : List Char) : Blanks (s.takeWhile fun c => c = ' ' ∨ c = '\t') := by
  intro c hc
  have := List.all_takeWhile (p := fun c => decide (c = ' ' ∨ c = '\t')) (l := s)
  simpa using List.all_eq_true.1 this c hc

theorem spelled_spells : ∀ (ts : List (List Char)) (s : List Char), spelled ts s = true → Spells ts s
  | [], s, h => by
    have hs := List.takeWhile_append_dropWhile (p := fun c => decide (c = ' ' ∨ c = '\t')) (l := s)
    rw [← hs]
    rw [spelled] at h
    cases hd : s.dropWhile (fun c => decide (c = ' ' ∨ c = '\t')) with
    | nil => rw [List.append_nil]; exact .done _ (blanks_takeWhile s)
    | cons c r =>
      rw [hd] at h
      have : c = ';' := by simpa using h
      subst this
      exact .comment _ _ (blanks_takeWhile s)
  | t :: ts, s, h => by
    have hs := List.takeWhile_append_dropWhile (p := fun c => decide (c = ' ' ∨ c = '\t')) (l := s)
    rw [spelled] at h
    simp only [Bool.and_eq_true, Bool.or_eq_true, decide_eq_true_eq] at h
    obtain ⟨⟨h1, h2⟩, h3⟩ := h
    have ih := spelled_spells ts _ h3
    rw [← hs, ← h1, ← List.append_assoc]
    rcases h2 with ⟨h4, h5⟩ | ⟨h4, h5⟩
    · refine .mark _ _ _ _ (blanks_takeWhile s) ?_ ih
      match t, h4, h5 with
      | [c], _, h5 => exact ⟨c, rfl, h5 c (by simp)⟩
    · refine .word _ _ _ _ (blanks_takeWhile s) h4 ?_ ih
      intro c hc
      exact h5 c hc

/-- A check for expressions that are written out. -/
def LExpr.grammatical : LExpr → Bool
  | .dec ds => ds ≠ [] && ds.all fun c => (digitValue c).any (· < 10)
  | .hex ds => ds ≠ [] && ds.all fun c => (digitValue c).any (· < 16)
  | .index => true
  | .pos e => e.grammatical && e.level = 3
  | .neg e => e.grammatical && e.level = 3
  | .paren e => e.grammatical
  | .bin op l r => l.grammatical && r.grammatical &&
      match op with
      | .add | .sub => decide (1 ≤ l.level ∧ 2 ≤ r.level)
      | .mul | .div => decide (2 ≤ l.level ∧ 3 ≤ r.level)

theorem digits_ok {b : Nat} {ds : List Char} (h : (ds.all fun c => (digitValue c).any (· < b)) = true) :
    ∀ c ∈ ds, ∃ d, digitValue c = some d ∧ d < b := by
  intro c hc
  have := List.all_eq_true.1 h c hc
  obtain ⟨d, h1, h2⟩ := (Option.any_eq_true _ _).1 this
  exact ⟨d, h1, by simpa using h2⟩

theorem grammatical_ok : ∀ e : LExpr, e.grammatical = true → e.Grammatical
  | .dec ds, h => by
    simp only [LExpr.grammatical, Bool.and_eq_true] at h
    exact ⟨by simpa using h.1, digits_ok h.2⟩
  | .hex ds, h => by
    simp only [LExpr.grammatical, Bool.and_eq_true] at h
    exact ⟨by simpa using h.1, digits_ok h.2⟩
  | .index, _ => trivial
  | .pos e, h => by
    simp only [LExpr.grammatical, Bool.and_eq_true, decide_eq_true_eq] at h
    exact ⟨grammatical_ok e h.1, h.2⟩
  | .neg e, h => by
    simp only [LExpr.grammatical, Bool.and_eq_true, decide_eq_true_eq] at h
    exact ⟨grammatical_ok e h.1, h.2⟩
  | .paren e, h => grammatical_ok e h
  | .bin op l r, h => by
    simp only [LExpr.grammatical, Bool.and_eq_true] at h
    refine ⟨grammatical_ok l h.1.1, grammatical_ok r h.1.2, ?_⟩
    cases op <;> simpa using h.2

theorem is_ok {i : Option Nat} {e : LExpr} {n : Nat} (hg : e.grammatical = true) (hd : e.depth ≤ 256)
    (hv : (e.value i).map unsigned = some n) : e.Is i n := by
  refine ⟨grammatical_ok e hg, hd, ?_⟩
  cases h : e.value i with
  | none => rw [h] at hv; cases hv
  | some v => rw [h] at hv; exact ⟨v, rfl, (Option.some.inj hv).symm⟩

/-- `(@-1)*$100+4/2` with `@` being 3. -/
example : (LExpr.bin .add (.bin .mul (.paren (.bin .sub .index (.dec ['1']))) (.hex "100".toList))
      (.bin .div (.dec ['4']) (.dec ['2']))).Is (some 3) 0x202 :=
  is_ok (by decide +kernel) (by decide +kernel) (by decide +kernel)

example : parseExpression ⟨some 3, none⟩ (nextToken "( @-1) *$100+4/2 ) ".toList) = .ok (some 0x202, ⟨[')'], [' ']⟩) := by
  decide +kernel

/-- A machine with two banks, memory that is not in the image, two groups and two symbols. -/
def exampleLines : List (List Char) :=
  ["; a machine".toList, "POOLS  BANKS[1:2] $C000 @ $4000 (@-1)*$4000".toList, "".toList,
   "POOL RAM 256 0 2*$80 : 7 ; not in the image".toList, "GROUP CODE:TEXT BANKS".toList, "GROUP BSS RAM BANKS".toList,
   "SYMBOL ramStart BSS.start".toList, "SYMBOL limit 2+3*4".toList, "FORMATS BIN CBM_PRG[$0801]".toList]

def exampleMachine : Machine :=
  { pools := [("BANKS".toList, [⟨some 0, 0xFFFFFFFF, 0xC000, 1, 0x4000, []⟩, ⟨some 0x4000, 0xFFFFFFFF, 0xC000, 2, 0x4000, []⟩]),
      ("RAM".toList, [⟨none, 7, 256, 0, 256, []⟩])]
    groups := [("CODE".toList, ["BANKS".toList]), ("BSS".toList, ["RAM".toList, "BANKS".toList])]
    symbols := [("ramStart".toList, .start 1), ("limit".toList, .number 14)]
    formats := [.binary, .cbmPrg]
    header := 0x801 }

theorem example_file : File Machine.empty exampleLines exampleMachine := by
  unfold exampleLines
  refine .empty _ _ _ _ (spelled_spells _ _ (by decide +kernel)) ?_
  refine .line _ _ _ (.pools "BANKS".toList (.dec ['1']) (.dec ['2'])
    ⟨.hex "C000".toList, .index, .hex "4000".toList,
      some (.bin .mul (.paren (.bin .sub .index (.dec ['1']))) (.hex "4000".toList)), none⟩) _ _
    (spelled_spells _ _ (by decide +kernel))
    (.pools _ _ _ _ _ 1 2 [⟨some 0, 0xFFFFFFFF, 0xC000, 1, 0x4000, []⟩, ⟨some 0x4000, 0xFFFFFFFF, 0xC000, 2, 0x4000, []⟩]
      (by decide) (by decide) (is_ok (by decide +kernel) (by decide +kernel) (by decide +kernel))
      (is_ok (by decide +kernel) (by decide +kernel) (by decide +kernel)) (by decide) (by decide) (by decide) (by decide) ?_) ?_
  · intro k q hk
    match k, hk with
    | 0, hk =>
      have := Option.some.inj hk
      subst this
      exact {
        addr := is_ok (by decide +kernel) (by decide +kernel) (by decide +kernel)
        bank := ⟨1, is_ok (by decide +kernel) (by decide +kernel) (by decide +kernel), by decide +kernel⟩
        size := is_ok (by decide +kernel) (by decide +kernel) (by decide +kernel)
        image := ⟨0, is_ok (by decide +kernel) (by decide +kernel) (by decide +kernel), by decide +kernel⟩
        overlay := rfl
        free := rfl
        bankUnsigned := by decide +kernel
        sizeUnsigned := by decide +kernel
        imageUnsigned := by intro e h; cases h; decide +kernel }
    | 1, hk =>
      have := Option.some.inj hk
      subst this
      exact {
        addr := is_ok (by decide +kernel) (by decide +kernel) (by decide +kernel)
        bank := ⟨2, is_ok (by decide +kernel) (by decide +kernel) (by decide +kernel), by decide +kernel⟩
        size := is_ok (by decide +kernel) (by decide +kernel) (by decide +kernel)
        image := ⟨0x4000, is_ok (by decide +kernel) (by decide +kernel) (by decide +kernel), by decide +kernel⟩
        overlay := rfl
        free := rfl
        bankUnsigned := by decide +kernel
        sizeUnsigned := by decide +kernel
        imageUnsigned := by intro e h; cases h; decide +kernel }
  refine .empty _ _ _ _ (spelled_spells _ _ (by decide +kernel)) ?_
  refine .line _ _ _ (.pool "RAM".toList
    ⟨.dec "256".toList, .dec ['0'], .bin .mul (.dec ['2']) (.hex "80".toList), none, some (.dec ['7'])⟩) _ _
    (spelled_spells _ _ (by decide +kernel))
    (.pool _ _ _ ⟨none, 7, 256, 0, 256, []⟩ (by decide) (by decide +kernel) {
        addr := is_ok (by decide +kernel) (by decide +kernel) (by decide +kernel)
        bank := ⟨0, is_ok (by decide +kernel) (by decide +kernel) (by decide +kernel), by decide +kernel⟩
        size := is_ok (by decide +kernel) (by decide +kernel) (by decide +kernel)
        image := rfl
        overlay := is_ok (by decide +kernel) (by decide +kernel) (by decide +kernel)
        free := rfl
        bankUnsigned := by decide +kernel
        sizeUnsigned := by decide +kernel
        imageUnsigned := by intro e h; cases h }) ?_
  refine .line _ _ _ (.group "CODE".toList (some "TEXT".toList) ["BANKS".toList]) _ _ (spelled_spells _ _ (by decide +kernel))
    (.group _ _ _ _ (by decide) (by decide +kernel) (by intro k h; cases h; decide) (by decide +kernel) (by decide +kernel)) ?_
  refine .line _ _ _ (.group "BSS".toList none ["RAM".toList, "BANKS".toList]) _ _ (spelled_spells _ _ (by decide +kernel))
    (.group _ _ _ _ (by decide) (by decide +kernel) (by intro k h; cases h) (by decide +kernel) (by decide +kernel)) ?_
  refine .line _ _ _ (.groupStart "ramStart".toList "BSS".toList) _ _ (spelled_spells _ _ (by decide +kernel))
    (.groupStart _ _ _ 1 (by decide) (by decide +kernel) (by decide) ⟨'S', by decide +kernel, ?_⟩ (by decide +kernel) (by decide)) ?_
  · intro d hd
    have : digitValue 'S' = none := by decide +kernel
    rw [this] at hd
    cases hd
  refine .line _ _ _ (.symbol "limit".toList (.bin .add (.dec ['2']) (.bin .mul (.dec ['3']) (.dec ['4'])))) _ _
    (spelled_spells _ _ (by decide +kernel))
    (.symbol _ _ _ 14 (by decide) (by decide +kernel) (grammatical_ok _ (by decide +kernel)) (by decide +kernel)
      (by decide +kernel)) ?_
  refine .line _ _ _ (.formatsCbm ["BIN".toList] (.hex "0801".toList)) _ _
    (spelled_spells _ _ (by decide +kernel))
    (.formatsCbm _ _ [.binary] _ 0x801 (.cons "BIN" _ _ _ (by decide +kernel) .nil)
      (is_ok (by decide +kernel) (by decide +kernel) (by decide +kernel))) ?_
  exact .done _

example : ∃ l, read exampleLines = .ok l ∧ Represents l exampleMachine :=
  C25_file _ _ example_file (by decide)

/-- The groups refer to the pools by their positions: the banks are pools 0 and 1, the memory is pool 2. -/
example : (read exampleLines).bind (fun l => .ok (l.groups.map (·.pools))) = .ok [[0, 1], [2, 0, 1]] := by decide +kernel

end Verif.Layout
