import Verif.Ami.Link
/-!
# C55, C56: Amiga executables and objects of the assembler
-/
namespace Verif.Ami
open Verif.Expr (u32 toI32 FMath Den wrap AExpr I32 sectionAndOffset)
open Verif.Container.Amiga (padded length_padded longs_flatMap)

theorem secOk {M : Mod} (h : M.WF) {s : Sec} (hs : s ∈ M.secs) : SecOk M s := ⟨h.used s hs, h.data s hs, h.inside s hs, h.count32 s hs⟩

/-- The hunk that belongs to a section: its type and its size; a hunk without contents is not relocated. -/
structure IsHunk (s : Sec) (h : Hunk) : Prop where
  kind : h.kind = if s.text then (if s.isData then 0x3EA else 0x3E9) else 0x3EB
  longs : h.longs = (s.used + 3) / 4
  empty : s.text = false → h.data = [] ∧ h.tail.relocs = [] ∧ ∀ n o, Ext.ref32 n o ∉ h.tail.exts

theorem isHunk {M : Mod} {s : Sec} (h : SecOk M s) (link debug : Bool) (k : Nat) : IsHunk s (hunkOf M link debug k s) := by
  refine ⟨rfl, longs_eq h.used, fun ht => ?_⟩
  unfold hunkOf tailOf
  simp only [ht, Bool.false_eq_true, if_false, List.nil_append, true_and]
  intro n o he
  obtain ⟨y, _, e⟩ := List.mem_map.1 he
  cases e

theorem triple_value (fm : FMath) {M : Mod} {link : Bool} {base : Nat → Int} {ρ : Den} {addr : Bytes → Int} (hp : M.asm.Places base ρ)
    (hi : link = true → ∀ n, (M.sym n).sym.type = .imported ∨ (M.sym n).sym.type = .global → ρ.sym n = some (addr (M.sym n).name) ∧ I32 (addr (M.sym n).name))
    {p : Patch} (he : p.expr.Plain) (hn : link = true → Positive p.expr) (h : (target M link p).isSome = true) :
    ∃ x v, triple M link base addr p = some x ∧ p.expr.den fm wrap ρ = some v ∧ u32 (x.2.1 + x.2.2) = u32 v := by
  unfold triple
  cases ht : target M link p with
  | none => rw [ht] at h; cases h
  | some t =>
    cases t with
    | sec k o =>
      obtain ⟨w, h1, h2⟩ := Expr.sectionAndOffset_sound fm hp he (target_lt ht).1
      exact ⟨_, w, rfl, h1, u32_congr (by simp only; omega)⟩
    | imp n o =>
      obtain ⟨h1, rfl⟩ := target_imp ht
      obtain ⟨w, h1, h2⟩ := importOffset_sound fm (at_ := fun n => addr (M.sym n).name) (hi rfl) p.expr he (hn rfl) h1
      exact ⟨_, w, rfl, h1, u32_congr (by simp only at h2 ⊢; omega)⟩

theorem hunk_holds (fm : FMath) {M : Mod} (hM : M.WF) {link debug : Bool} {k : Nat} {s : Sec} (hs : s ∈ M.secs) (ht : s.text = true)
    {base : Nat → Int} {ρ : Den} {addr : Bytes → Int} (hp : M.asm.Places base ρ)
    (hi : link = true → ∀ n, (M.sym n).sym.type = .imported ∨ (M.sym n).sym.type = .global → ρ.sym n = some (addr (M.sym n).name) ∧ I32 (addr (M.sym n).name))
    (hn : link = true → ∀ p ∈ s.patches, Positive p.expr) (h : ∀ p ∈ s.patches, (target M link p).isSome = true) :
    ∃ m, (hunkOf M link debug k s).memory base addr = some m ∧ Holds fm ρ s m := by
  obtain ⟨m, h1, h2, h3, h4⟩ := hunk_memory (link := link) (debug := debug) (k := k) (secOk hM hs) ht (hM.apart s hs) base addr
  have hd := hM.data s hs ht
  refine ⟨m, h1, by rw [h2, length_padded, hd], fun j hj hc => ?_, fun p hps => ?_⟩
  · rw [h3 j hc]
    unfold padded
    rw [List.getElem?_append_left (by omega)]
  · obtain ⟨x, v, g1, g2, g3⟩ := triple_value fm hp hi (hM.plain s hs p hps) (fun e => hn e p hps) (h p hps)
    exact ⟨v, g2, by rw [← g3]; exact h4 p hps x g1⟩

/-! ### Which modules are written -/

theorem putSection_targets {M : Mod} {link debug : Bool} {k : Nat} {s : Sec} {f f' : Bytes} (h : putSection M link debug k s f = .ok f') (ht : s.text = true) :
    ∀ p ∈ s.patches, (target M link p).isSome = true := by
  unfold putSection at h
  simp only at h
  rw [if_pos ht] at h
  split at h
  · rename_i ha
    exact List.all_eq_true.1 ha
  · cases h

theorem putSection_written {M : Mod} {link debug : Bool} {k : Nat} {s : Sec} (f : Bytes)
    (h : s.text = true → ∀ p ∈ s.patches, (target M link p).isSome = true) : ∃ f', putSection M link debug k s f = .ok f' := by
  unfold putSection
  simp only
  split
  · rename_i ht
    rw [if_pos (List.all_eq_true.2 (h ht))]
    exact ⟨_, rfl⟩
  · exact ⟨_, rfl⟩

theorem ok_bind {α β : Type} (a : α) (g : α → Outcome β) : (Outcome.ok a).bind g = g a := rfl

theorem bind_ok {α β : Type} {o : Outcome α} {g : α → Outcome β} {b : β} (h : o.bind g = .ok b) : ∃ a, o = .ok a ∧ g a = .ok b := by
  cases o with
  | ok a => exact ⟨a, rfl, h⟩
  | fail => cases h
  | ub => cases h

theorem names_ok {M : Mod} (h : M.WF) : ∀ y ∈ M.syms, NameOk y.name := fun y hy => h.symNames y hy

/-- The hunks of an executable: what is appended, and how it is read. -/
theorem executable_hunks {M : Mod} (hM : M.WF) {debug : Bool} : ∀ {ss : List Sec} {k : Nat} {f f' : Bytes}, (∀ s ∈ ss, s ∈ M.secs) →
    putExecutable M debug k ss f = .ok f' → (∀ s ∈ ss, s.text = true → ∀ p ∈ s.patches, (target M false p).isSome = true) ∧
    ∃ b hs, f' = f ++ b ∧ (∀ r, hunks (ss.map sizeWord) (b ++ r) = some (hs, r)) ∧ hs.length = ss.length ∧
      ∀ (i : Nat) s, ss[i]? = some s → hs[i]? = some (s.shared, hunkOf M false debug (k + i) s) := by
  intro ss
  induction ss with
  | nil =>
    intro k f f' _ h
    cases h
    exact ⟨fun s hs => (by cases hs), [], [], by simp, fun r => rfl, rfl, fun i s h => by cases h⟩
  | cons s ss ih =>
    intro k f f' hin h
    obtain ⟨f1, h1, h2⟩ := bind_ok (show (putSection M false debug k s f).bind (putExecutable M debug (k + 1) ss) = .ok f' from h)
    have hs := hin s (by simp)
    obtain ⟨b1, rfl, _, hb1⟩ := hunk_ok hM.count (names_ok hM) (secOk hM hs) h1
    obtain ⟨ht, b2, hs2, rfl, hb2, hl2, hi2⟩ := ih (fun x hx => hin x (by simp [hx])) h2
    refine ⟨?_, b1 ++ b2, (s.shared, hunkOf M false debug k s) :: hs2, by simp only [List.append_assoc], fun r => ?_, by simp [hl2], ?_⟩
    · intro x hx
      rcases List.mem_cons.1 hx with rfl | hx
      · exact putSection_targets h1
      · exact ht x hx
    · rw [List.append_assoc, List.map_cons]
      unfold hunks
      rw [hb1]
      simp only [Option.bind_eq_bind, Option.bind_some]
      have hlo : longs s.used < 1073741824 := by rw [longs_eq (hM.used s hs)]; have := hM.used s hs; omega
      have hw : sizeWord s % 1073741824 = longs s.used ∧ sizeWord s < 2147483648 ∧ (sizeWord s / 1073741824 == 1) = s.shared := by
        unfold sizeWord
        cases hsh : s.shared with
        | false =>
          rw [if_neg (by simp)]
          refine ⟨Nat.mod_eq_of_lt hlo, by omega, ?_⟩
          rw [Nat.div_eq_of_lt hlo]; rfl
        | true =>
          rw [if_pos rfl]
          have := Nat.two_pow_add_eq_or_of_lt (i := 30) (b := longs s.used) (by simpa using hlo) 1
          rw [Nat.or_comm]
          have e : 0x40000000 ||| longs s.used = 1073741824 + longs s.used := this.symm
          rw [e]
          refine ⟨by omega, by omega, ?_⟩
          rw [show (1073741824 + longs s.used) / 1073741824 = 1 by omega]; rfl
      rw [if_pos ⟨by rw [hw.1]; exact Nat.le_refl _, hw.2.1⟩, hb2 r, hw.2.2]
      rfl
    · intro i x hx
      cases i with
      | zero => cases hx; rfl
      | succ i =>
        rw [List.getElem?_cons_succ] at hx ⊢
        rw [hi2 i x hx, show k + 1 + i = k + (i + 1) by omega]

/-- **C55.** An executable that the assembler writes without debug information can be loaded: there is one hunk for every section, of its type and size, in chip memory if
the section asks for it, and wherever the hunks are placed their memory holds the contents of the sections with the values of all expressions in their places. -/
theorem C55_executable (M : Mod) (hM : M.WF) (h0 : M.secs ≠ []) (f : Bytes) (h : writeExecutable M false = .ok f) :
    ∃ hs, load f = some hs ∧ hs.length = M.secs.length ∧ ∀ (k : Nat) s, M.secs[k]? = some s → ∃ hk, hs[k]? = some (s.shared, hk) ∧ IsHunk s hk ∧
      hk.tail.exts = [] ∧
      ∀ fm base ρ addr, M.asm.Places base ρ → s.text = true → ∃ m, hk.memory base addr = some m ∧ Holds fm ρ s m := by
  unfold writeExecutable at h
  obtain ⟨ht, b, hs, rfl, hb, hl, hi⟩ := executable_hunks hM (fun _ h => h) h
  have hpos : 0 < M.secs.length := List.length_pos_iff.2 h0
  refine ⟨hs, ?_, hl, ?_⟩
  · have hc := hM.count
    have hlast : ∃ last, (M.secs.length + 4294967295) % W32 = last ∧ last < W32 ∧ M.secs.length = last + 1 :=
      ⟨M.secs.length - 1, by omega, by omega, by omega⟩
    obtain ⟨last, el, hl1, hl2⟩ := hlast
    rw [el]
    have h5 := longs_flatMap [0x3F3, 0, M.secs.length, 0, last] (((M.secs.map sizeWord).flatMap put32be) ++ b) (by
      intro x hx
      simp only [List.mem_cons, List.not_mem_nil, or_false] at hx
      omega)
    simp only [List.flatMap_cons, List.flatMap_nil, List.append_nil, List.append_assoc, List.length_cons, List.length_nil] at h5
    simp only [Bool.false_eq_true, if_false, List.nil_append, List.append_assoc]
    rw [show M.secs.flatMap (fun s => put32be (sizeWord s)) = (M.secs.map sizeWord).flatMap put32be by rw [List.flatMap_map]]
    unfold load
    rw [h5]
    simp only [Option.bind_eq_bind, Option.bind_some]
    rw [if_pos hl2]
    have h6 := longs_flatMap (M.secs.map sizeWord) b (by
      intro x hx
      obtain ⟨s, hs, rfl⟩ := List.mem_map.1 hx
      have h1 := hM.used s hs
      have h2 : longs s.used < 1073741824 := by rw [longs_eq h1]; omega
      unfold sizeWord
      split
      · have := Nat.or_lt_two_pow (n := 32) (x := longs s.used) (y := 0x40000000) (by omega) (by omega)
        omega
      · omega)
    rw [List.length_map] at h6
    rw [h6]
    simp only [Option.bind_some]
    have := hb []
    rw [List.append_nil] at this
    rw [this]
  · intro k s hk
    have hm := List.mem_of_getElem? hk
    have := hi k s hk
    rw [Nat.zero_add] at this
    refine ⟨_, this, isHunk (secOk hM hm) false false k, ?_, fun fm base ρ addr hp htx => ?_⟩
    · unfold hunkOf tailOf refsOf defsOf
      simp
    · exact hunk_holds fm hM hm htx hp (fun e => by cases e) (fun e => by cases e) (ht s hm htx)

theorem target_false {M : Mod} {p : Patch} : (target M false p).isSome = true ↔ p.be32 = true ∧ (sectionAndOffset M.asm p.expr).isSome = true := by
  unfold target
  cases hb : p.be32 with
  | false => simp
  | true =>
    rw [if_pos rfl]
    cases sectionAndOffset M.asm p.expr with
    | none => simp
    | some x => simp

theorem target_true {M : Mod} {p : Patch} : (target M true p).isSome = true ↔
    p.be32 = true ∧ ((sectionAndOffset M.asm p.expr).isSome = true ∨ (importOffset M.asm.syms p.expr).isSome = true) := by
  unfold target
  cases hb : p.be32 with
  | false => simp
  | true =>
    rw [if_pos rfl]
    cases sectionAndOffset M.asm p.expr with
    | none => simp
    | some x => simp

theorem putExecutable_written {M : Mod} {debug : Bool} : ∀ {ss : List Sec} (k : Nat) (f : Bytes),
    (∀ s ∈ ss, s.text = true → ∀ p ∈ s.patches, (target M false p).isSome = true) → ∃ f', putExecutable M debug k ss f = .ok f' := by
  intro ss
  induction ss with
  | nil => intro k f _; exact ⟨f, rfl⟩
  | cons s ss ih =>
    intro k f h
    obtain ⟨f1, h1⟩ := putSection_written (debug := debug) (k := k) f (h s (by simp))
    obtain ⟨f2, h2⟩ := ih (k + 1) f1 fun x hx => h x (by simp [hx])
    exact ⟨f2, by unfold putExecutable; rw [h1, ok_bind, h2]⟩

theorem putExecutable_targets {M : Mod} {debug : Bool} : ∀ {ss : List Sec} {k : Nat} {f f' : Bytes}, putExecutable M debug k ss f = .ok f' →
    ∀ s ∈ ss, s.text = true → ∀ p ∈ s.patches, (target M false p).isSome = true := by
  intro ss
  induction ss with
  | nil => intro k f f' _ s hs; cases hs
  | cons s ss ih =>
    intro k f f' h x hx
    obtain ⟨f1, h1, h2⟩ := bind_ok (show (putSection M false debug k s f).bind (putExecutable M debug (k + 1) ss) = .ok f' from h)
    rcases List.mem_cons.1 hx with rfl | hx
    · exact putSection_targets h1
    · exact ih h2 x hx

/-- **C55.** An executable is written exactly if every expression that is left has 32 bits and is an offset in a section. -/
theorem C55_written (M : Mod) (debug : Bool) : (∃ f, writeExecutable M debug = .ok f) ↔
    ∀ s ∈ M.secs, s.text = true → ∀ p ∈ s.patches, p.be32 = true ∧ (sectionAndOffset M.asm p.expr).isSome = true := by
  constructor
  · rintro ⟨f, h⟩ s hs ht p hp
    exact target_false.1 (putExecutable_targets h s hs ht p hp)
  · intro h
    exact putExecutable_written 0 _ fun s hs ht p hp => target_false.2 (h s hs ht p hp)

theorem findSection_skip {syms : Nat → Expr.ASym} {e : AExpr} {o : Nat} : ∀ (l : List Expr.ASect) (j i : Nat) (sec : Expr.ASect), l[i]? = some sec →
    Expr.sectionOffset syms (j + i) sec e = some o → (∀ (x : Nat) y, x < i → l[x]? = some y → Expr.sectionOffset syms (j + x) y e = none) →
    Expr.findSection syms e j l = some (j + i, o) := by
  intro l
  induction l with
  | nil => intro j i sec h; cases h
  | cons a l ih =>
    intro j i sec h h1 h2
    cases i with
    | zero =>
      cases h
      unfold Expr.findSection
      rw [Nat.add_zero] at h1
      rw [h1]
      rfl
    | succ i =>
      have h3 := h2 0 a (by omega) rfl
      rw [Nat.add_zero] at h3
      unfold Expr.findSection
      rw [h3]
      simp only
      rw [ih (j + 1) i sec h (by rw [show j + 1 + i = j + (i + 1) by omega]; exact h1) fun x y hx hy => by
        rw [show j + 1 + x = j + (x + 1) by omega]
        exact h2 (x + 1) y (by omega) hy, show j + 1 + i = j + (i + 1) by omega]

/-- **C55.** Addresses of labels, with or without a number added, are such expressions, if no property of the section was given. -/
theorem C55_label (M : Mod) (n k : Nat) (s : Sec) (hy : (M.sym n).sym.type = .label) (hk : (M.sym n).sym.sect = some k) (hs : M.secs[k]? = some s)
    (h1 : s.sect.loadFixed = false) (h2 : s.sect.bankFixed = false) (h3 : s.sect.orgFixed = false) (h4 : s.sect.otherFlags = false) (c : Int) :
    sectionAndOffset M.asm (.sym n) = some (k, u32 (M.sym n).sym.value) ∧
    sectionAndOffset M.asm (.bin none .add (.sym n) (.const c)) = some (k, u32 (u32 (M.sym n).sym.value + c)) := by
  have hsec : M.asm.sects[k]? = some s.sect := by
    show (M.secs.map Sec.sect)[k]? = _
    rw [List.getElem?_map, hs]
    rfl
  have hoff : Expr.symSectionOffset (M.asm.syms n) k s.sect = some (u32 (M.sym n).sym.value) := by
    show Expr.symSectionOffset (M.sym n).sym k s.sect = _
    unfold Expr.symSectionOffset
    simp [hy, hk, h1, h2, h3, h4, Expr.SymType.constant, Expr.SymType.reloc]
  have hno : ∀ (x : Nat) y, x < k → M.asm.sects[x]? = some y → Expr.symSectionOffset (M.asm.syms n) x y = none := by
    intro x y hx _
    show Expr.symSectionOffset (M.sym n).sym x y = _
    unfold Expr.symSectionOffset
    rw [if_neg (by rw [hy]; simp), if_neg (by rw [hk]; simp; omega)]
  constructor
  · have := findSection_skip (e := .sym n) M.asm.sects 0 k s.sect hsec (by rw [Nat.zero_add]; exact hoff) fun x y hx hy => by
      rw [Nat.zero_add]; exact hno x y hx hy
    rw [Nat.zero_add] at this
    exact this
  · have := findSection_skip (e := .bin none .add (.sym n) (.const c)) (o := u32 (u32 (M.sym n).sym.value + c)) M.asm.sects 0 k s.sect hsec (by
        rw [Nat.zero_add]
        show (Expr.shifted (Expr.symSectionOffset (M.asm.syms n) k s.sect) (some c) (· + ·)).orElse _ = _
        rw [hoff]
        rfl) fun x y hx hy => by
      rw [Nat.zero_add]
      show (Expr.shifted (Expr.symSectionOffset (M.asm.syms n) x y) (some c) (· + ·)).orElse (fun _ => Expr.shifted (if y.loadFixed then some _ else none) none _) = _
      rw [hno x y hx hy]
      simp [Expr.shifted]
    rw [Nat.zero_add] at this
    exact this

/-! ### Objects -/

theorem object_hunks {M : Mod} (hM : M.WF) : ∀ {ss : List Sec} {k : Nat} {f f' : Bytes}, (∀ s ∈ ss, s ∈ M.secs) →
    putObject M k ss f = .ok f' → (∀ s ∈ ss, s.text = true → ∀ p ∈ s.patches, (target M true p).isSome = true) ∧
    ∃ b hs, f' = f ++ b ∧ ss.length ≤ b.length ∧ (∀ fuel, ss.length < fuel → objectHunks fuel b = some hs) ∧ hs.length = ss.length ∧
      ∀ (i : Nat) s, ss[i]? = some s → hs[i]? = some (s.name, hunkOf M true true (k + i) s) := by
  intro ss
  induction ss with
  | nil =>
    intro k f f' _ h
    cases h
    refine ⟨fun s hs => (by cases hs), [], [], by simp, Nat.le_refl _, fun fuel hf => ?_, rfl, fun i s h => by cases h⟩
    obtain ⟨n, rfl⟩ : ∃ n, fuel = n + 1 := ⟨fuel - 1, by simp at hf; omega⟩
    rfl
  | cons s ss ih =>
    intro k f f' hin h
    obtain ⟨f1, h1, h2⟩ := bind_ok (show (putSection M true true k s (f ++ (put32be 0x3E8 ++ fputstr s.name 0))).bind (putObject M (k + 1) ss) = .ok f' from h)
    have hs := hin s (by simp)
    obtain ⟨b1, rfl, _, hb1⟩ := hunk_ok hM.count (names_ok hM) (secOk hM hs) h1
    obtain ⟨ht, b2, hs2, rfl, hlb, hb2, hl2, hi2⟩ := ih (fun x hx => hin x (by simp [hx])) h2
    refine ⟨?_, put32be 0x3E8 ++ (fputstr s.name 0 ++ (b1 ++ b2)), (s.name, hunkOf M true true k s) :: hs2, by simp only [List.append_assoc], ?_, fun fuel hf => ?_,
      by simp [hl2], ?_⟩
    · intro x hx
      rcases List.mem_cons.1 hx with rfl | hx
      · exact putSection_targets h1
      · exact ht x hx
    · simp only [List.length_append, List.length_cons, length_put32be]; omega
    · obtain ⟨n, rfl⟩ : ∃ n, fuel = n + 1 := ⟨fuel - 1, by simp at hf; omega⟩
      have hne : put32be 0x3E8 ++ (fputstr s.name 0 ++ (b1 ++ b2)) ≠ [] := by simp [put32be]
      obtain ⟨hz, hzl⟩ := hM.names s hs
      have e : ∀ (x : Bytes), x ≠ [] → objectHunks (n + 1) x = (do
          let (w, f) ← get32be x
          if w = 0x3E8 then
            let (n', f) ← get32be f
            let (s, f) ← name n' f
            let (h, f) ← hunk f
            let r ← objectHunks n f
            some ((s, h) :: r)
          else none) := by
        intro x hx
        cases x with
        | nil => exact absurd rfl hx
        | cons a x => rfl
      rw [e _ hne, get32be_put32be (by omega)]
      unfold fputstr
      simp only [Option.bind_eq_bind, Option.bind_some, Nat.or_zero, List.append_assoc]
      rw [if_pos True.intro, get32be_put32be (by omega)]
      simp only [Option.bind_some]
      rw [name_padded hz]
      simp only [Option.bind_some]
      rw [hb1]
      simp only [Option.bind_some]
      rw [hb2 n (by simp at hf; omega)]
      rfl
    · intro i x hx
      cases i with
      | zero => cases hx; rfl
      | succ i =>
        rw [List.getElem?_cons_succ] at hx ⊢
        rw [hi2 i x hx, show k + 1 + i = k + (i + 1) by omega]

/-- **C56.** An object that the assembler writes can be read: it has the name of the source and one hunk for every section, with its name, type and size. The hunk lists the labels of the
section with their offsets, and defines those that are exported. Wherever hunks and symbols of other objects are placed, the memory of a hunk
holds the contents of the section with the values of all expressions in their places, if nothing but numbers is subtracted. -/
theorem C56_object (M : Mod) (hM : M.WF) (source : Bytes) (hz : (0 : UInt8) ∉ source) (hl : source.length < 67108861) (f : Bytes) (h : writeObject M source = .ok f) :
    ∃ hs, object f = some (source, hs) ∧ hs.length = M.secs.length ∧ ∀ (k : Nat) s, M.secs[k]? = some s → ∃ hk, hs[k]? = some (s.name, hk) ∧ IsHunk s hk ∧
      (∀ n v, (n, v) ∈ hk.tail.symbols ↔ ∃ y ∈ M.syms, y.sym.type.reloc = true ∧ y.sym.sect = some k ∧ y.name = n ∧ u32 y.sym.value = v) ∧
      (∀ n v, .defn n v ∈ hk.tail.exts ↔ ∃ y ∈ M.syms, y.sym.type.reloc = true ∧ y.exported = true ∧ y.sym.sect = some k ∧ y.name = n ∧ u32 y.sym.value = v) ∧
      ∀ fm base ρ addr, M.asm.Places base ρ → s.text = true →
        (∀ n, (M.sym n).sym.type = .imported ∨ (M.sym n).sym.type = .global → ρ.sym n = some (addr (M.sym n).name) ∧ I32 (addr (M.sym n).name)) →
        (∀ p ∈ s.patches, Positive p.expr) → ∃ m, hk.memory base addr = some m ∧ Holds fm ρ s m := by
  unfold writeObject at h
  obtain ⟨ht, b, hs, rfl, hlb, hb, hll, hi⟩ := object_hunks hM (fun _ h => h) h
  refine ⟨hs, ?_, hll, ?_⟩
  · unfold object fputstr
    simp only [Nat.or_zero, List.append_assoc]
    rw [get32be_put32be (by omega)]
    simp only [Option.bind_eq_bind, Option.bind_some]
    rw [if_pos True.intro, get32be_put32be (by omega)]
    simp only [Option.bind_some]
    rw [name_padded hz]
    simp only [Option.bind_some]
    rw [hb _ (by omega)]
    rfl
  · intro k s hk
    have hm := List.mem_of_getElem? hk
    have := hi k s hk
    rw [Nat.zero_add] at this
    refine ⟨_, this, isHunk (secOk hM hm) true true k, fun n v => ?_, fun n v => ?_, fun fm base ρ addr hp htx hi hn => ?_⟩
    · show (n, v) ∈ (if true = true then (M.labels k).map fun y => (y.name, u32 y.sym.value) else []) ↔ _
      rw [if_pos rfl, List.mem_map]
      unfold Mod.labels
      constructor
      · rintro ⟨y, hy, e⟩
        obtain ⟨h1, h2⟩ := List.mem_filter.1 hy
        cases e
        simp only [Bool.and_eq_true, beq_iff_eq] at h2
        exact ⟨y, h1, h2.1, h2.2, rfl, rfl⟩
      · rintro ⟨y, h1, h2, h3, rfl, rfl⟩
        exact ⟨y, List.mem_filter.2 ⟨h1, by simp [h2, h3]⟩, rfl⟩
    · show Ext.defn n v ∈ (if s.text then (refsOf M true s).map fun g => Ext.ref32 (M.sym g.1).name (g.2.map Prod.fst) else []) ++
        (M.exports k).map (fun y => Ext.defn y.name (u32 y.sym.value)) ↔ _
      rw [List.mem_append]
      unfold Mod.exports
      constructor
      · rintro (he | he)
        · split at he
          · obtain ⟨g, _, e⟩ := List.mem_map.1 he
            cases e
          · cases he
        · obtain ⟨y, hy, e⟩ := List.mem_map.1 he
          obtain ⟨h1, h2⟩ := List.mem_filter.1 hy
          cases e
          simp only [Bool.and_eq_true, beq_iff_eq] at h2
          exact ⟨y, h1, h2.1.1, h2.1.2, h2.2, rfl, rfl⟩
      · rintro ⟨y, h1, h2, h3, h4, rfl, rfl⟩
        exact Or.inr (List.mem_map.2 ⟨y, List.mem_filter.2 ⟨h1, by simp [h2, h3, h4]⟩, rfl⟩)
    · exact hunk_holds fm hM hm htx hp (fun _ => hi) (fun _ => hn) (ht s hm htx)

theorem putObject_written {M : Mod} : ∀ {ss : List Sec} (k : Nat) (f : Bytes),
    (∀ s ∈ ss, s.text = true → ∀ p ∈ s.patches, (target M true p).isSome = true) → ∃ f', putObject M k ss f = .ok f' := by
  intro ss
  induction ss with
  | nil => intro k f _; exact ⟨f, rfl⟩
  | cons s ss ih =>
    intro k f h
    obtain ⟨f1, h1⟩ := putSection_written (debug := true) (k := k) (f ++ (put32be 0x3E8 ++ fputstr s.name 0)) (h s (by simp))
    obtain ⟨f2, h2⟩ := ih (k + 1) f1 fun x hx => h x (by simp [hx])
    exact ⟨f2, by unfold putObject; rw [h1, ok_bind, h2]⟩

theorem putObject_targets {M : Mod} : ∀ {ss : List Sec} {k : Nat} {f f' : Bytes}, putObject M k ss f = .ok f' →
    ∀ s ∈ ss, s.text = true → ∀ p ∈ s.patches, (target M true p).isSome = true := by
  intro ss
  induction ss with
  | nil => intro k f f' _ s hs; cases hs
  | cons s ss ih =>
    intro k f f' h x hx
    obtain ⟨f1, h1, h2⟩ := bind_ok (show (putSection M true true k s _).bind (putObject M (k + 1) ss) = .ok f' from h)
    rcases List.mem_cons.1 hx with rfl | hx
    · exact putSection_targets h1
    · exact ih h2 x hx

/-- **C56.** An object is written exactly if every expression that is left has 32 bits and is an offset in a section or from an imported symbol. -/
theorem C56_written (M : Mod) (source : Bytes) : (∃ f, writeObject M source = .ok f) ↔
    ∀ s ∈ M.secs, s.text = true → ∀ p ∈ s.patches, p.be32 = true ∧
      ((sectionAndOffset M.asm p.expr).isSome = true ∨ (importOffset M.asm.syms p.expr).isSome = true) := by
  constructor
  · rintro ⟨f, h⟩ s hs ht p hp
    exact target_true.1 (putObject_targets h s hs ht p hp)
  · intro h
    exact putObject_written 0 _ fun s hs ht p hp => target_true.2 (h s hs ht p hp)

end Verif.Ami
