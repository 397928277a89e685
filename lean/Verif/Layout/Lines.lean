import Verif.Layout.Value
/-!
# Reading lines
-/
namespace Verif.Layout
open Verif.Expr (Tree Den Env FMath calculate)
open Verif.Config (Format)
open Verif.Assign (Pool MGroup)

/-! ### Pools -/

theorem noOp_nil : NoOp [] := by simp [NoOp]

theorem noOp_mark {t : List Char} {ts : List (List Char)} (h : t ∉ [['+'], ['-'], ['*'], ['/']]) : NoOp (t :: ts) := by
  simpa [NoOp] using h

/-- An expression has a first word, and it is not `*` or `/`. -/
theorem words_head (e : LExpr) : e.Grammatical → ∃ t ts, e.words = t :: ts ∧ t ≠ ['*'] ∧ t ≠ ['/'] := by
  induction e with
  | dec ds =>
    intro hg
    have hw := digit_words hg.2
    exact ⟨ds, [], rfl, hw _ (by decide), hw _ (by decide)⟩
  | hex ds => intro _; exact ⟨_, _, rfl, by decide, by decide⟩
  | index => intro _; exact ⟨_, _, rfl, by decide, by decide⟩
  | pos e ih => intro _; exact ⟨_, _, rfl, by decide, by decide⟩
  | neg e ih => intro _; exact ⟨_, _, rfl, by decide, by decide⟩
  | paren e ih => intro _; exact ⟨_, _, rfl, by decide, by decide⟩
  | bin op l r ihl ihr =>
    intro hg
    obtain ⟨t, ts, h1, h2, h3⟩ := ihl hg.1
    exact ⟨t, ts ++ op.word :: r.words, by simp [LExpr.words, h1], h2, h3⟩

theorem noOp_expr {e : LExpr} (hg : e.Grammatical) (hu : e.Unsigned) (ts : List (List Char)) : NoOp (e.words ++ ts) := by
  obtain ⟨t, ts', h1, h2, h3⟩ := words_head e hg
  unfold LExpr.Unsigned at hu
  rw [h1] at hu ⊢
  exact ⟨by simpa using hu.1, by simpa using hu.2, by simpa using h2, by simpa using h3⟩

/-- A missing expression. -/
theorem parseExpression_none (i : Option Nat) {st : St} (h : st.tok = [] ∨ st.tok = [':']) :
    parseExpression ⟨i, none⟩ st = .ok (none, st) := by
  have h4 : parse4 ⟨i, none⟩ st = .ok ⟨false, [], st⟩ := by
    have hi : parseInteger st = ⟨false, [], st⟩ := by
      unfold parseInteger
      by_cases h1 : st.tok = []
      · rw [if_pos h1]
      · rw [if_neg h1]
        have h2 := h.resolve_left h1
        have e : (if st.tok = ['$'] then (16, nextToken st.rest)
            else if st.tok = ['%', '%'] then (2, nextToken st.rest) else (10, st) : Nat × St) = (10, st) := by
          rw [h2, if_neg (by decide), if_neg (by decide)]
        have hd : digits 10 st.tok 0 = none := by rw [h2]; decide
        simp only [e, hd]
    unfold parse4
    split
    · rename_i h1 h2; rw [h2] at h; simp at h
    · simp only [hi]; rfl
  have h3 : ∀ n, parse3 ⟨i, none⟩ (n + 1) st = .ok ⟨false, [], st⟩ := by
    intro n
    rw [parse3, if_neg, if_neg, if_neg, h4] <;> rcases h with h | h <;> rw [h] <;> decide
  have h1 : parse1 ⟨i, none⟩ (steps st) st = .ok ⟨false, [], st⟩ := by
    have : steps st = (3 * (st.tok.length + st.rest.length)) + 1 + 1 + 1 := rfl
    rw [this, parse1, parse2, h3]
    rfl
  rw [parseExpression, h1]
  rfl

theorem toI32_signed (n : Nat) : Expr.toI32 (n : Int) = signed n := by
  unfold Expr.toI32 signed; omega

theorem parsePool_words {p : Params} {i : Option Nat} {q : Pool} (hd : p.Describes i q) {k : Nat}
    (hi : ∀ j, i = some j → j = k ∧ k < W32) {st : St} (ha : At st p.words) :
    ∃ st', At st' [] ∧ parsePool k st = .ok (q, st') := by
  have hi' : ∀ j, i = some j → (⟨some k, none⟩ : Ctx).index = some j ∧ j < W32 := by
    intro j hj
    obtain ⟨rfl, h⟩ := hi j hj
    exact ⟨rfl, h⟩
  obtain ⟨bn, hbank, hb⟩ := hd.bank
  have hov : ∀ (ws : List (List Char)), (colonWords (p.overlay.map (·.words))) = ws →
      NoOp ws := by
    intro ws h
    cases ho : p.overlay with
    | none => rw [ho] at h; subst h; exact noOp_nil
    | some e => rw [ho] at h; subst h; exact noOp_mark (by decide)
  have ha : At st (p.addr.words ++ (p.bank.words ++ (p.size.words ++
      (optionalWords p.image ++ colonWords (p.overlay.map (·.words)))))) := by
    simpa [Params.words, List.append_assoc] using ha
  obtain ⟨s1, h1, e1⟩ := expectExpression_words ⟨some k, none⟩ i hi' hd.addr ha (noOp_expr hbank.1 hd.bankUnsigned _)
  obtain ⟨s2, h2, e2⟩ := expectExpression_words ⟨some k, none⟩ i hi' hbank h1 (noOp_expr hd.size.1 hd.sizeUnsigned _)
  have hn : NoOp (optionalWords p.image ++ colonWords (p.overlay.map (·.words))) := by
    have him := hd.image
    cases hp : p.image with
    | none => exact hov _ rfl
    | some e =>
      rw [hp] at him
      obtain ⟨n, hn, _⟩ := him
      exact noOp_expr hn.1 (hd.imageUnsigned e hp) _
  obtain ⟨s3, h3, e3⟩ := expectExpression_words ⟨some k, none⟩ i hi' hd.size h2 hn
  have him : ∃ s4 v, At s4 (colonWords (p.overlay.map (·.words))) ∧
      parseExpression ⟨some k, none⟩ s3 = .ok (v, s4) ∧
      q.image = if v.getD U32MAX = U32MAX then none else some (v.getD U32MAX) := by
    have him := hd.image
    cases hp : p.image with
    | none =>
      rw [hp] at him h3
      refine ⟨s3, none, h3, parseExpression_none _ ?_, him⟩
      cases ho : p.overlay with
      | none => rw [ho] at h3; exact .inl h3.tok_nil
      | some e => rw [ho] at h3; exact .inr h3.tok
    | some e =>
      rw [hp] at him h3
      obtain ⟨n, hn, hq⟩ := him
      obtain ⟨s4, h4, e4⟩ := parseExpression_words ⟨some k, none⟩ i hi' hn h3 (hov _ rfl)
      exact ⟨s4, some n, h4, e4, hq⟩
  obtain ⟨s4, v, h4, e4, hq⟩ := him
  have hov2 : ∃ s5, At s5 [] ∧
      (if s4.tok = [':'] then expectExpression ⟨some k, none⟩ (nextToken s4.rest) else .ok (U32MAX, s4)) =
        .ok (q.overlay, s5) := by
    have hover := hd.overlay
    cases ho : p.overlay with
    | none =>
      rw [ho] at h4 hover
      refine ⟨s4, h4, ?_⟩
      rw [if_neg (by rw [h4.tok_nil]; simp), hover]
    | some e =>
      rw [ho] at h4 hover
      have h5 : At (nextToken s4.rest) (e.words ++ []) := by
        rw [List.append_nil]; exact h4.next
      obtain ⟨s5, h6, e5⟩ := expectExpression_words ⟨some k, none⟩ i hi' hover h5 noOp_nil
      exact ⟨s5, h6, by rw [if_pos h4.tok, e5]⟩
  obtain ⟨s5, h5, e5⟩ := hov2
  refine ⟨s5, h5, ?_⟩
  have hfree := hd.free
  unfold parsePool
  simp only [e1, e2, e3, e4, Outcome.bind]
  rw [e5]
  simp only [← hq, toI32_signed, ← hb, ← hfree]

theorem poolsLoop_words {p : Params} {params : List Char} (hs : Spells p.words params) : ∀ (n a : Nat) (qs : List Pool) (st : St),
    qs.length = n + 1 → a + n < W32 → (∀ (k : Nat) (q : Pool), qs[k]? = some q → p.Describes (some (a + k)) q) →
    ∃ st', At st' [] ∧ poolsLoop params (n + 1) a st = .ok (qs, st')
  | n, a, [], st, h, _, _ => by simp at h
  | n, a, q :: qs, st, hl, hw, hd => by
    have h0 := hd 0 q rfl
    obtain ⟨s1, h1, e1⟩ := parsePool_words h0 (k := a) (by intro j hj; cases hj; exact ⟨rfl, by omega⟩) (at_next hs)
    rw [poolsLoop, e1]
    simp only [Outcome.bind]
    cases n with
    | zero =>
      have : qs = [] := by
        cases qs with
        | nil => rfl
        | cons _ _ => simp at hl
      subst this
      exact ⟨s1, h1, rfl⟩
    | succ n =>
      obtain ⟨s2, h2, e2⟩ := poolsLoop_words hs n (a + 1) qs s1 (by simpa using hl) (by omega) (by
        intro k q' hk
        have := hd (k + 1) q' (by simpa using hk)
        rwa [show a + (k + 1) = a + 1 + k by omega] at this)
      rw [e2]
      exact ⟨s2, h2, rfl⟩

/-! ### What has been read -/

/-- The expression of a symbol: numbers have their value, properties of groups are looked up with the number of the
group and 0 for the start, 1 for the size. -/
def Means (code : Bytes) : SymbolMeaning → Prop
  | .number v => ∀ (fm : FMath) (env : Env) (ρ : Den), env.Places ρ → calculate fm env code = .ok (some ⟨none, v⟩)
  | .start i => ∀ (fm : FMath) (env : Env) (ρ : Den), env.Places ρ → ∀ v, ρ.group i 0 = some v →
      calculate fm env code = .ok (some ⟨none, v⟩)
  | .size i => ∀ (fm : FMath) (env : Env) (ρ : Den), env.Places ρ → ∀ v, ρ.group i 1 = some v →
      calculate fm env code = .ok (some ⟨none, v⟩)

/-- The state of the linker is what the machine `m` says: all its pools in order, groups that refer to them by their
positions, symbols, formats and header address. -/
structure Represents (l : Layout) (m : Machine) : Prop where
  pools : l.pools = m.pools.flatMap (·.2)
  groups : l.groups = m.groups.map fun g => ⟨String.ofList g.1, g.2.flatMap fun p => (m.positions p).getD []⟩
  symbols : l.symbols.length = m.symbols.length ∧ ∀ (k : Nat) (s : List Char × Bytes) (t : List Char × SymbolMeaning),
    l.symbols[k]? = some s → m.symbols[k]? = some t → s.1 = t.1 ∧ Means s.2 t.2
  formats : l.formats = m.formats
  header : l.header = m.header

/-- What the parser needs in addition: the names of pools. -/
structure Tracks (l : Layout) (m : Machine) : Prop extends Represents l m where
  map : ∀ name, (l.map.find? fun x => x.1 == name).map (·.2) = m.positions name
  known : ∀ g ∈ m.groups, ∀ p ∈ g.2, p ∈ m.pools.map (·.1)
  words : ∀ p ∈ m.pools.map (·.1), Word p

theorem positions_some {m : Machine} {name : List Char} (h : name ∈ m.pools.map (·.1)) : ∃ ps, m.positions name = some ps := by
  have hf : (m.pools.find? (fun x => x.1 == name)).isSome := by
    rw [List.find?_isSome]
    obtain ⟨x, hx, rfl⟩ := List.mem_map.1 h
    exact ⟨x, hx, by simp⟩
  have hi : (m.pools.findIdx? (fun x => x.1 == name)).isSome := by
    rw [List.findIdx?_isSome]
    obtain ⟨x, hx, rfl⟩ := List.mem_map.1 h
    exact List.any_eq_true.2 ⟨x, hx, by simp⟩
  obtain ⟨x, hx⟩ := Option.isSome_iff_exists.1 hf
  obtain ⟨k, hk⟩ := Option.isSome_iff_exists.1 hi
  exact ⟨_, by rw [Machine.positions, hk, hx]⟩

theorem positions_none {m : Machine} {name : List Char} (h : name ∉ m.pools.map (·.1)) : m.positions name = none := by
  have : m.pools.find? (fun x => x.1 == name) = none := by
    rw [List.find?_eq_none]
    intro x hx he
    exact h (List.mem_map.2 ⟨x, hx, eq_of_beq he⟩)
  rw [Machine.positions, this]
  cases m.pools.findIdx? (fun x => x.1 == name) <;> rfl

theorem positions_append (m : Machine) (name : List Char) (qs : List Pool) (p : List Char) (hn : name ∉ m.pools.map (·.1)) :
    Machine.positions { m with pools := m.pools ++ [(name, qs)] } p =
      if p = name then some (List.range' (m.pools.map (·.2.length)).sum qs.length) else m.positions p := by
  by_cases hp : p = name
  · subst hp
    rw [if_pos rfl]
    have h1 : m.pools.find? (fun x => x.1 == p) = none := by
      rw [List.find?_eq_none]
      intro x hx he
      exact hn (List.mem_map.2 ⟨x, hx, eq_of_beq he⟩)
    have h2 : m.pools.findIdx? (fun x => x.1 == p) = none := by
      rw [List.findIdx?_eq_none_iff]
      intro x hx
      have := List.find?_eq_none.1 h1 x hx
      simpa using this
    rw [Machine.positions]
    simp only
    rw [List.find?_append, h1, List.findIdx?_append, h2]
    simp
  · rw [if_neg hp]
    rw [Machine.positions, Machine.positions]
    simp only
    have hne : ((name, qs).1 == p) = false := by
      simp only [beq_eq_false_iff_ne]
      exact fun h => hp h.symm
    have e1 : (m.pools ++ [(name, qs)]).find? (fun x => x.1 == p) = m.pools.find? (fun x => x.1 == p) := by
      rw [List.find?_append]
      cases m.pools.find? (fun x => x.1 == p) with
      | some x => rfl
      | none => simpa using fun h : name = p => hp h.symm
    have e2 : (m.pools ++ [(name, qs)]).findIdx? (fun x => x.1 == p) = m.pools.findIdx? (fun x => x.1 == p) := by
      rw [List.findIdx?_append]
      cases m.pools.findIdx? (fun x => x.1 == p) with
      | some x => rfl
      | none => simpa [List.findIdx?_cons] using fun h : name = p => hp h.symm
    rw [e1, e2]
    cases hk : m.pools.findIdx? (fun x => x.1 == p) with
    | none => rfl
    | some k =>
      have hlt : k < m.pools.length := by
        obtain ⟨h, _⟩ := List.findIdx?_eq_some_iff_getElem.1 hk
        exact h
      cases m.pools.find? (fun x => x.1 == p) with
      | none => rfl
      | some x =>
        simp only
        rw [List.take_append_of_le_length (by omega)]

theorem flatMap_congr {α β : Type} {l : List α} {f g : α → List β} (h : ∀ x ∈ l, f x = g x) : l.flatMap f = l.flatMap g := by
  rw [List.flatMap_def, List.flatMap_def, List.map_congr_left h]

theorem insert_tracks {l : Layout} {m : Machine} (h : Tracks l m) {name : List Char} {qs : List Pool}
    (hw : Word name) (hn : name ∉ m.pools.map (·.1)) :
    ∃ l', l.insert name qs = .ok l' ∧ Tracks l' { m with pools := m.pools ++ [(name, qs)] } ∧ l'.index = l.index := by
  have hf : l.map.find? (fun x => x.1 == name) = none := by
    have := h.map name
    rw [positions_none hn] at this
    cases hx : l.map.find? (fun x => x.1 == name) with
    | none => rfl
    | some x => rw [hx] at this; cases this
  refine ⟨{ l with pools := l.pools ++ qs, map := l.map ++ [(name, (List.range qs.length).map (· + l.pools.length))] },
    by rw [Layout.insert, hf]; rfl, ⟨⟨?_, ?_, h.symbols, h.formats, h.header⟩, ?_, ?_, ?_⟩, rfl⟩
  · simp only [List.flatMap_append, h.pools, List.flatMap_cons, List.flatMap_nil, List.append_nil]
  · simp only
    rw [h.groups]
    refine List.map_congr_left fun g hg => ?_
    congr 1
    refine flatMap_congr fun p hp => ?_
    have hk := h.known g hg p hp
    rw [positions_append m name qs p hn, if_neg (by rintro rfl; exact hn hk)]
  · intro p
    simp only
    rw [positions_append m name qs p hn, List.find?_append]
    by_cases hp : p = name
    · subst hp
      rw [if_pos rfl, hf]
      simp only [Option.none_or, List.find?_cons, beq_self_eq_true, Option.map_some]
      rw [h.pools, List.length_flatMap, List.range'_eq_map_range]
      congr 2
      funext x
      omega
    · rw [if_neg hp, ← h.map p]
      cases l.map.find? (fun x => x.1 == p) with
      | some x => rfl
      | none => simpa using fun h : name = p => hp h.symm
  · intro g hg p hp
    have := h.known g hg p hp
    simp only [List.map_append, List.mem_append]
    exact .inl this
  · intro p hp
    simp only [List.map_append, List.mem_append, List.map_cons, List.map_nil, List.mem_singleton] at hp
    rcases hp with hp | rfl
    · exact h.words p hp
    · exact hw

theorem word_ne {t : List Char} (h : Word t) : t ≠ [] := h.1

theorem word_not_mark {t : List Char} (h : Word t) (c : Char) (hc : Separator c) : t ≠ [c] := by
  rintro rfl
  exact h.2 c (by simp) hc

theorem parsePoolDirective_words {l : Layout} {m : Machine} (h : Tracks l m) {name : List Char} {p : Params} {q : Pool}
    (hw : Word name) (hn : name ∉ m.pools.map (·.1)) (hd : p.Describes none q) {st : St} (ha : At st (name :: p.words)) :
    ∃ l' st', At st' [] ∧ parsePoolDirective l st = .ok (l', st') ∧
      Tracks l' { m with pools := m.pools ++ [(name, [q])] } := by
  obtain ⟨s1, h1, e1⟩ := parsePool_words hd (k := l.index) (by intro j hj; cases hj) ha.next
  obtain ⟨l', e2, h2, _⟩ := insert_tracks h (qs := [q]) hw hn
  refine ⟨l', s1, h1, ?_, h2⟩
  rw [parsePoolDirective, if_neg ha.tok_ne, e1]
  simp only [Outcome.bind]
  rw [ha.tok, e2]

theorem tracks_index {l : Layout} {m : Machine} (h : Tracks l m) (k : Nat) : Tracks { l with index := k } m :=
  ⟨⟨h.pools, h.groups, h.symbols, h.formats, h.header⟩, h.map, h.known, h.words⟩

theorem parsePoolsDirective_words {l : Layout} {m : Machine} (h : Tracks l m) {name : List Char} {first last : LExpr}
    {p : Params} {a b : Nat} {qs : List Pool} (hw : Word name) (hn : name ∉ m.pools.map (·.1)) (hf : first.Is none a) (hl : last.Is none b)
    (hab : a ≤ b) (hb : b < 4294967295) (hc : b - a < 2147483647) (hlen : qs.length = b - a + 1)
    (hd : ∀ (k : Nat) (q : Pool), qs[k]? = some q → p.Describes (some (a + k)) q) {st : St}
    (ha : At st (name :: ['['] :: first.words ++ [':'] :: last.words ++ [']'] :: p.words)) :
    ∃ l' st', At st' [] ∧ parsePoolsDirective l st = .ok (l', st') ∧
      Tracks l' { m with pools := m.pools ++ [(name, qs)] } := by
  have ha : At st (name :: ['['] :: (first.words ++ ([':'] :: (last.words ++ ([']'] :: p.words))))) := by
    simpa [List.append_assoc] using ha
  have h1 := ha.next
  have e1 : expectToken ['['] (nextToken st.rest) = .ok (nextToken (nextToken st.rest).rest) := by
    rw [expectToken, if_pos h1.tok]
  obtain ⟨s2, h2, e2⟩ := expectExpression_words ⟨none, none⟩ none (by intro k hk; cases hk) hf h1.next (noOp_mark (by decide))
  have e3 : expectToken [':'] s2 = .ok (nextToken s2.rest) := by rw [expectToken, if_pos h2.tok]
  obtain ⟨s4, h4, e4⟩ := expectExpression_words ⟨none, none⟩ none (by intro k hk; cases hk) hl h2.next (noOp_mark (by decide))
  have hsp : Spells p.words s4.rest := by cases h4; assumption
  obtain ⟨s5, h5, e5⟩ := poolsLoop_words hsp (b - a) a qs s4 hlen (by omega) hd
  obtain ⟨l', e6, h6, _⟩ := insert_tracks h (qs := qs) hw hn
  refine ⟨_, s5, h5, ?_, tracks_index h6 (max a (b + 1))⟩
  rw [parsePoolsDirective, if_neg ha.tok_ne, e1]
  simp only [Outcome.bind]
  rw [e2]
  simp only
  rw [e3]
  simp only
  rw [e4]
  simp only
  rw [if_pos h4.tok, if_neg (by omega)]
  have : b + 1 - a = b - a + 1 := by omega
  rw [this, e5]
  simp only
  rw [ha.tok, e6]

theorem groupLoop_words {l : Layout} {m : Machine} (h : Tracks l m) : ∀ (ps : List (List Char)) (n : Nat) (st : St),
    At st ps → (∀ p ∈ ps, p ∈ m.pools.map (·.1)) → size st + 1 ≤ n →
    ∃ st', At st' [] ∧ groupLoop l.map n st = .ok (ps.flatMap fun p => (m.positions p).getD [], st')
  | [], 0, st, _, _, hn => by omega
  | _ :: _, 0, st, _, _, hn => by omega
  | [], n + 1, st, ha, _, _ => ⟨st, ha, by rw [groupLoop, if_pos ha.tok_nil]; rfl⟩
  | p :: ps, n + 1, st, ha, hp, hn => by
    have hlt := nextToken_lt ha.tok_ne
    obtain ⟨s1, h1, e1⟩ := groupLoop_words h ps n (nextToken st.rest) ha.next (fun x hx => hp x (by simp [hx])) (by omega)
    obtain ⟨xs, hxs⟩ := positions_some (hp p (by simp))
    refine ⟨s1, h1, ?_⟩
    rw [groupLoop, if_neg ha.tok_ne, ha.tok]
    have hm := h.map p
    rw [hxs] at hm
    cases hf : l.map.find? (fun x => x.1 == p) with
    | none => rw [hf] at hm; cases hm
    | some x =>
      rw [hf] at hm
      have hx : x.2 = xs := Option.some.inj hm
      simp only
      rw [e1]
      simp only [Outcome.bind, List.flatMap_cons, hxs, Option.getD_some, hx]

theorem parseGroupDirective_words {l : Layout} {m : Machine} (h : Tracks l m) {name : List Char} {kind : Option (List Char)}
    {ps : List (List Char)} (hlen : name.length < 256) (hps : ps ≠ []) (hp : ∀ p ∈ ps, p ∈ m.pools.map (·.1))
    {st : St}
    (ha : At st (name :: colonWords (kind.map ([·])) ++ ps)) :
    ∃ l' st', At st' [] ∧ parseGroupDirective l st = .ok (l', st') ∧
      Tracks l' { m with groups := m.groups ++ [(name, ps)] } := by
  have hs2 : ∃ s2, At s2 ps ∧ (if (nextToken st.rest).tok = [':'] then nextToken (nextToken (nextToken st.rest).rest).rest
      else nextToken st.rest) = s2 := by
    cases kind with
    | none =>
      have h1 : At (nextToken st.rest) ps := ha.next
      refine ⟨_, h1, ?_⟩
      rw [if_neg]
      cases ps with
      | nil => exact absurd rfl hps
      | cons p ps => rw [h1.tok]; exact word_not_mark (h.words p (hp p (by simp))) _ (by decide)
    | some k =>
      have h1 : At (nextToken st.rest) ([':'] :: k :: ps) := ha.next
      exact ⟨_, h1.next.next, by rw [if_pos h1.tok]⟩
  obtain ⟨s2, h2, e2⟩ := hs2
  have hne : s2.tok ≠ [] := by
    cases ps with
    | nil => exact absurd rfl hps
    | cons p ps => exact h2.tok_ne
  obtain ⟨s3, h3, e3⟩ := groupLoop_words h ps (s2.tok.length + s2.rest.length + 1) s2 h2 hp (by unfold size; omega)
  refine ⟨{ l with groups := l.groups ++ [⟨String.ofList name, ps.flatMap fun p => (m.positions p).getD []⟩] }, s3, h3, ?_, ?_⟩
  · rw [parseGroupDirective, if_neg ha.tok_ne]
    simp only
    rw [e2, if_neg hne, e3]
    simp only [Outcome.bind]
    rw [if_neg (by rw [ha.tok]; omega), ha.tok]
  · refine ⟨⟨h.pools, ?_, h.symbols, h.formats, h.header⟩, h.map, ?_, h.words⟩
    · simp only [List.map_append, List.map_cons, List.map_nil]
      rw [h.groups]
      rfl
    · intro g hg p hgp
      simp only [List.mem_append, List.mem_singleton] at hg
      rcases hg with hg | hg
      · exact h.known g hg p hgp
      · subst hg; exact hp p hgp

/-! ### Symbols -/

theorem symbols_append {a : List (List Char × Bytes)} {b : List (List Char × SymbolMeaning)} {name : List Char} {code : Bytes}
    {s : SymbolMeaning} (hs : Means code s)
    (h : a.length = b.length ∧ ∀ (k : Nat) (s : List Char × Bytes) (t : List Char × SymbolMeaning),
      a[k]? = some s → b[k]? = some t → s.1 = t.1 ∧ Means s.2 t.2) :
    (a ++ [(name, code)]).length = (b ++ [(name, s)]).length ∧
      ∀ (k : Nat) (x : List Char × Bytes) (y : List Char × SymbolMeaning),
        (a ++ [(name, code)])[k]? = some x → (b ++ [(name, s)])[k]? = some y → x.1 = y.1 ∧ Means x.2 y.2 := by
  refine ⟨by simp [h.1], fun k x y hx hy => ?_⟩
  by_cases hk : k < a.length
  · rw [List.getElem?_append_left hk] at hx
    rw [List.getElem?_append_left (by omega)] at hy
    exact h.2 k x y hx hy
  · rw [List.getElem?_append_right (by omega)] at hx
    rw [List.getElem?_append_right (by omega)] at hy
    have hka : k - a.length = 0 := by
      cases hz : k - a.length with
      | zero => rfl
      | succ n => rw [hz] at hx; simp at hx
    rw [hka] at hx
    rw [show k - b.length = 0 by omega] at hy
    cases hx; cases hy
    exact ⟨rfl, hs⟩

theorem symbol_tracks {l : Layout} {m : Machine} (h : Tracks l m) {name : List Char} {code : Bytes} {s : SymbolMeaning}
    (hs : Means code s) : Tracks { l with symbols := l.symbols ++ [(name, code)] }
      { m with symbols := m.symbols ++ [(name, s)] } :=
  ⟨⟨h.pools, h.groups, symbols_append hs h.symbols, h.formats, h.header⟩, h.map, h.known, h.words⟩

theorem parseSymbolDirective_number {l : Layout} {m : Machine} (h : Tracks l m) {name : List Char} {e : LExpr} {v : Int}
    (hlen : name.length < 256) (hg : e.Grammatical) (hd : e.depth ≤ 256) (hv : e.value none = some v) {st : St}
    (ha : At st (name :: e.words)) :
    ∃ l' st', At st' [] ∧ parseSymbolDirective l st = .ok (l', st') ∧
      Tracks l' { m with symbols := m.symbols ++ [(name, .number v)] } := by
  obtain ⟨t, ht, -⟩ := value_tree noFMath noDen none e v hv
  have h1 := ha.next
  rw [← List.append_nil e.words] at h1
  obtain ⟨s2, h2, e2⟩ := parse1_words ⟨none, some l.findGroup⟩ none (by intro k hk; cases hk) e hg ht h1 noOp_nil
  refine ⟨_, s2, h2, ?_, symbol_tracks h (code := t.serialize) ?_⟩
  · rw [parseSymbolDirective, if_neg ha.tok_ne, if_neg (by rw [ha.tok]; omega)]
    simp only
    rw [e2, ha.tok]
    rfl
  · intro fm env ρ hp
    obtain ⟨t', ht', hval, hok, hreg, hdep, _⟩ := value_tree fm ρ none e v hv
    rw [ht] at ht'
    cases ht'
    exact Expr.C12_value_is_computed fm env ρ hp t hok hreg (by omega) v hval

theorem digit_ten {c : Char} {d : Nat} (h : digit c = some d) (hd : d < 10) : digitValue c = some d := by
  unfold digit at h
  by_cases h1 : '0' ≤ c ∧ c ≤ '9'
  · rw [if_pos h1] at h
    have h2 : 48 ≤ c.toNat ∧ c.toNat ≤ 57 := ⟨h1.1, h1.2⟩
    have hc : c = Char.ofNat c.toNat := (Char.ofNat_toNat c).symm
    have h3 : c.toNat - '0'.toNat = d := Option.some.inj h
    have : c.toNat = 48 ∨ c.toNat = 49 ∨ c.toNat = 50 ∨ c.toNat = 51 ∨ c.toNat = 52 ∨ c.toNat = 53 ∨ c.toNat = 54 ∨
      c.toNat = 55 ∨ c.toNat = 56 ∨ c.toNat = 57 := by omega
    rcases this with h | h | h | h | h | h | h | h | h | h <;> rw [h] at hc h3 <;> rw [hc, ← h3] <;> decide
  · rw [if_neg h1] at h
    by_cases h2 : 'A' ≤ c ∧ c ≤ 'Z'
    · rw [if_pos h2] at h
      have := Option.some.inj h
      omega
    · rw [if_neg h2] at h
      by_cases h3 : 'a' ≤ c ∧ c ≤ 'z'
      · rw [if_pos h3] at h
        have := Option.some.inj h
        omega
      · rw [if_neg h3] at h; cases h

theorem digits_none {g : List Char} (h : ∃ c ∈ g, ∀ d, digitValue c = some d → 10 ≤ d) : ∀ v, digits 10 g v = none := by
  induction g with
  | nil => obtain ⟨c, hc, _⟩ := h; cases hc
  | cons x g ih =>
    intro v
    rw [digits]
    cases hx : digit x with
    | none => rfl
    | some d =>
      simp only
      by_cases hd : d ≥ 10
      · rw [if_pos hd]
      · rw [if_neg hd]
        refine ih ?_ _
        obtain ⟨c, hc, h⟩ := h
        rcases List.mem_cons.1 hc with rfl | hc
        · have := h d (digit_ten hx (by omega)); omega
        · exact ⟨c, hc, h⟩

theorem findGroup_tracks {l : Layout} {m : Machine} (h : Tracks l m) (g : List Char) :
    l.findGroup g = (m.groups.map (·.1)).findIdx? (· == g) := by
  rw [Layout.findGroup, h.groups, List.findIdx?_map, List.findIdx?_map]
  congr 1
  funext x
  simp

theorem parse1_group {l : Layout} {g prop : List Char} {i k : Nat} (hg : Word g)
    (hne : ∃ c ∈ g, ∀ d, digitValue c = some d → 10 ≤ d) (hi : l.findGroup g = some i)
    (hk : (prop = "start".toList ∧ k = 0) ∨ (prop = "size".toList ∧ k = 1)) {st : St}
    (ha : At st [g, ['.'], prop]) :
    ∃ st', At st' [] ∧ parse1 ⟨none, some l.findGroup⟩ (steps st) st =
      .ok ⟨false, constant i ++ constant k ++ put8 35, st'⟩ := by
  have hp : parseInteger st = ⟨false, [], st⟩ := by
    unfold parseInteger
    rw [if_neg ha.tok_ne]
    have h1 : st.tok ≠ ['$'] := by rw [ha.tok]; exact word_not_mark hg _ (by decide)
    have h2 : st.tok ≠ ['%', '%'] := by
      rw [ha.tok]; rintro rfl
      exact hg.2 '%' (by simp) (by decide)
    simp only [if_neg h1, if_neg h2]
    rw [ha.tok, digits_none hne]
  have h1 := ha.next
  have h2 := h1.next
  have h4 : parse4 ⟨none, some l.findGroup⟩ st = .ok ⟨false, constant i ++ constant k ++ put8 35, nextToken (nextToken (nextToken st.rest).rest).rest⟩ := by
    unfold parse4
    simp only [hp, if_neg ha.tok_ne]
    rw [if_neg (by simp), ha.tok, hi]
    simp only
    rw [if_pos h1.tok, h2.tok]
    rcases hk with ⟨rfl, rfl⟩ | ⟨rfl, rfl⟩
    · rw [if_pos rfl]
    · rw [if_neg (by decide), if_pos rfl]
  refine ⟨_, h2.next, ?_⟩
  have : steps st = (3 * (st.tok.length + st.rest.length)) + 1 + 1 + 1 := rfl
  have hm : ∀ c, Separator c → st.tok ≠ [c] := by intro c hc; rw [ha.tok]; exact word_not_mark hg c hc
  rw [this, parse1, parse2, parse3, if_neg (hm _ (by decide)), if_neg (hm _ (by decide)), if_neg (hm _ (by decide)), h4]
  rfl

theorem group_code (fm : FMath) (env : Env) (ρ : Den) (hp : env.Places ρ) {i k : Nat} (hi : i < 2147483648)
    (hk : k < 2) {v : Int} (hv : ρ.group i k = some v) :
    calculate fm env (constant i ++ constant k ++ put8 35) = .ok (some ⟨none, v⟩) := by
  have h1 : constant i = (Tree.const (i : Int)).serialize := by
    rw [constant_serialize i i (Nat.mod_eq_of_lt (by omega)), signed_small hi]
  have h2 : constant k = (Tree.const (k : Int)).serialize := by
    rw [constant_serialize k k (Nat.mod_eq_of_lt (by omega)), signed_small (by omega)]
  have hri : Expr.inRange (i : Int) = some (i : Int) := by
    unfold Expr.inRange; exact if_pos (by unfold Expr.I32; omega)
  have hrk : Expr.inRange (k : Int) = some (k : Int) := by
    unfold Expr.inRange; exact if_pos (by unfold Expr.I32; omega)
  have hrv : Expr.inRange v = some v := by
    unfold Expr.inRange; exact if_pos (hp.groupRange _ _ _ hv)
  rw [h1, h2]
  refine Expr.C12_value_is_computed fm env ρ hp (.group (.const i) (.const k)) ?_ ⟨trivial, trivial⟩ ?_ v ?_
  · simp only [Tree.Ok, Expr.I32]; omega
  · simp only [Tree.depth]; omega
  · show ((Expr.inRange (i : Int)).bind fun a => (Expr.inRange (k : Int)).bind fun b => (ρ.group a b).bind Expr.inRange) = some v
    rw [hri, hrk]
    simp only [Option.bind_some]
    rw [hv]
    exact hrv

theorem parseSymbolDirective_group {l : Layout} {m : Machine} (h : Tracks l m) {name g prop : List Char} {i k : Nat}
    {s : SymbolMeaning} (hlen : name.length < 256) (hg : Word g) (hne : ∃ c ∈ g, ∀ d, digitValue c = some d → 10 ≤ d)
    (hi : (m.groups.map (·.1)).findIdx? (· == g) = some i) (hlt : i < 2147483648)
    (hk : (prop = "start".toList ∧ k = 0 ∧ s = .start i) ∨ (prop = "size".toList ∧ k = 1 ∧ s = .size i)) {st : St}
    (ha : At st [name, g, ['.'], prop]) :
    ∃ l' st', At st' [] ∧ parseSymbolDirective l st = .ok (l', st') ∧
      Tracks l' { m with symbols := m.symbols ++ [(name, s)] } := by
  obtain ⟨s2, h2, e2⟩ := parse1_group hg hne (by rw [findGroup_tracks h]; exact hi)
    (k := k) (by rcases hk with ⟨a, b, _⟩ | ⟨a, b, _⟩; exact .inl ⟨a, b⟩; exact .inr ⟨a, b⟩) ha.next
  refine ⟨_, s2, h2, ?_, symbol_tracks h (code := constant i ++ constant k ++ put8 35) ?_⟩
  · rw [parseSymbolDirective, if_neg ha.tok_ne, if_neg (by rw [ha.tok]; omega)]
    simp only
    rw [e2, ha.tok]
    rfl
  · rcases hk with ⟨_, rfl, rfl⟩ | ⟨_, rfl, rfl⟩
    · intro fm env ρ hp v hv
      exact group_code fm env ρ hp hlt (by omega) hv
    · intro fm env ρ hp v hv
      exact group_code fm env ρ hp hlt (by omega) hv

/-! ### Formats -/

theorem format_name {n : String} {g : Format} (h : (n, g) ∈ formatMeaning) :
    n.toList ≠ "CBM_PRG".toList ∧ formatNames.find? (fun x => x.1.toList == n.toList) = some (n, g) := by
  have key : ∀ x ∈ formatMeaning, x.1.toList ≠ "CBM_PRG".toList ∧
      formatNames.find? (fun y => y.1.toList == x.1.toList) = some x := by decide +kernel
  exact key (n, g) h

theorem formats_tracks {l : Layout} {m : Machine} (h : Tracks l m) (gs : List Format) :
    Tracks { l with formats := l.formats ++ gs } { m with formats := m.formats ++ gs } :=
  ⟨⟨h.pools, h.groups, h.symbols, by simp only [h.formats], h.header⟩, h.map, h.known, h.words⟩

theorem formatsLoop_words {fs : List (List Char)} {gs : List Format} (hf : Formats fs gs) :
    ∀ (ts : List (List Char)) (l : Layout) (m : Machine) (n : Nat) (st : St), Tracks l m → At st (fs ++ ts) → size st + 1 ≤ n →
      ∃ l' st' n', At st' ts ∧ size st' + 1 ≤ n' ∧ formatsLoop n l st = formatsLoop n' l' st' ∧
        Tracks l' { m with formats := m.formats ++ gs } := by
  induction hf with
  | nil =>
    intro ts l m n st h ha hn
    exact ⟨l, st, n, ha, hn, rfl, by simpa using h⟩
  | cons name g fs gs hm _ ih =>
    intro ts l m n st h ha hn
    cases n with
    | zero => omega
    | succ n =>
      have ha : At st (name.toList :: (fs ++ ts)) := ha
      obtain ⟨h1, h2⟩ := format_name hm
      have hlt := nextToken_lt ha.tok_ne
      obtain ⟨l', st', n', h3, h4, h5, h6⟩ := ih ts _ _ n _ (formats_tracks h [g]) ha.next (by omega)
      refine ⟨l', st', n', h3, h4, ?_, by simpa using h6⟩
      rw [formatsLoop, if_neg ha.tok_ne, parseFormat, if_neg (by rw [ha.tok]; exact h1), ha.tok, h2]
      exact h5

theorem formatsLoop_done {l : Layout} {st : St} {n : Nat} (ha : At st []) (hn : size st + 1 ≤ n) :
    formatsLoop n l st = .ok (l, st) := by
  cases n with
  | zero => omega
  | succ n => rw [formatsLoop, if_pos ha.tok_nil]

theorem parseFormatsDirective_words {l : Layout} {m : Machine} (h : Tracks l m) {fs : List (List Char)} {gs : List Format}
    (hne : fs ≠ []) (hf : Formats fs gs) {st : St} (ha : At st fs) :
    ∃ l' st', At st' [] ∧ parseFormatsDirective l st = .ok (l', st') ∧
      Tracks l' { m with formats := m.formats ++ gs } := by
  have hn : st.tok ≠ [] := by
    cases fs with
    | nil => exact absurd rfl hne
    | cons f fs => exact ha.tok_ne
  rw [← List.append_nil fs] at ha
  obtain ⟨l', st', n', h1, h2, h3, h4⟩ := formatsLoop_words hf [] l m (st.tok.length + st.rest.length + 1) st h ha
    (by unfold size; omega)
  refine ⟨l', st', h1, ?_, h4⟩
  rw [parseFormatsDirective, if_neg hn, h3, formatsLoop_done h1 h2]

theorem at_done {st : St} (h : At st []) : At (nextToken st.rest) [] := by
  cases h with
  | nil _ hs => exact at_next hs

theorem parseFormatsDirective_cbm {l : Layout} {m : Machine} (h : Tracks l m) {fs : List (List Char)} {gs : List Format}
    {e : LExpr} {k : Nat} (hf : Formats fs gs) (he : e.Is none k) {st : St}
    (ha : At st (fs ++ "CBM_PRG".toList :: ['['] :: e.words ++ [[']']])) :
    ∃ l' st', At st' [] ∧ parseFormatsDirective l st = .ok (l', st') ∧
      Tracks l' { m with formats := m.formats ++ gs ++ [.cbmPrg], header := k % 65536 } := by
  have hn : st.tok ≠ [] := by
    cases fs with
    | nil => exact ha.tok_ne
    | cons f fs => exact ha.tok_ne
  have ha : At st (fs ++ ("CBM_PRG".toList :: ['['] :: (e.words ++ [[']']]))) := by simpa [List.append_assoc] using ha
  obtain ⟨l', st', n', h1, h2, h3, h4⟩ := formatsLoop_words hf _ l m (st.tok.length + st.rest.length + 1) st h ha
    (by unfold size; omega)
  have h5 := h1.next
  have e5 : expectToken ['['] (nextToken st'.rest) = .ok (nextToken (nextToken st'.rest).rest) := by
    rw [expectToken, if_pos h5.tok]
  obtain ⟨s6, h6, e6⟩ := expectExpression_words ⟨none, none⟩ none (by intro k hk; cases hk) he h5.next (noOp_mark (by decide))
  have e7 : expectToken [']'] s6 = .ok (nextToken s6.rest) := by rw [expectToken, if_pos h6.tok]
  have h8 := at_done h6.next
  refine ⟨{ l' with header := k % 65536, formats := l'.formats ++ [.cbmPrg] }, _, h8, ?_, ?_⟩
  · rw [parseFormatsDirective, if_neg hn, h3]
    cases n' with
    | zero => omega
    | succ n' =>
      rw [formatsLoop, if_neg h1.tok_ne, parseFormat, if_pos h1.tok, e5]
      simp only [Outcome.bind]
      rw [e6]
      simp only
      rw [e7]
      simp only
      have hlt := nextToken_lt h1.tok_ne
      have hsz : size (nextToken (nextToken s6.rest).rest) ≤ size (nextToken s6.rest) := nextToken_le _
      cases n' with
      | zero =>
        have := nextToken_lt h5.tok_ne
        omega
      | succ n' =>
        rw [formatsLoop, if_pos h8.tok_nil]
  · exact ⟨⟨h4.pools, h4.groups, h4.symbols, by simp only [h4.formats], rfl⟩, h4.map, h4.known, h4.words⟩

end Verif.Layout
