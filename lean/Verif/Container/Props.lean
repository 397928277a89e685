import Verif.Container.Model
import Verif.Container.Spec
/-!
# C23: containers can be read back
-/
namespace Verif.Container

theorem u16_eq {v : Int} (h : 0 ≤ v) (h' : v < 65536) : u16 v = v.toNat := by unfold u16; omega
theorem u32_eq {v : Int} (h : 0 ≤ v) (h' : v < 4294967296) : u32 v = v.toNat := by unfold u32; omega
theorem i32_eq {v : Int} (h : 0 ≤ v) (h' : v < 2147483648) : i32 v = v := by unfold i32; omega

/-- What should be loaded: the data of the used sections at their locations. -/
def wanted (l : List Sect) : List (Int × Bytes) :=
  (l.filter fun s => s.used).flatMap fun s =>
    match s.data with
    | some d => [(s.loc, d)]
    | none => []

theorem loaded_eq : ∀ l : List Sect, loaded l = wanted l
  | [] => rfl
  | s :: l => by
    have ih := loaded_eq l
    unfold loaded wanted at ih ⊢
    rw [List.filterMap_cons, List.filter_cons]
    cases hu : s.used with
    | false =>
      simp only [Bool.false_eq_true, if_false]
      exact ih
    | true =>
      cases hd : s.data with
      | none => simp only [if_true, hd, List.flatMap_cons, Option.map_none, List.nil_append]; exact ih
      | some d => simp only [if_true, hd, List.flatMap_cons, Option.map_some, List.singleton_append]; rw [ih]

/-- The start address: the entry symbol's value if there is one, otherwise the first code section. -/
def Start (entry : Option (Option Int)) (first : Option Int) (start : Int) : Prop :=
  entry = some (some start) ∨ entry = none ∧ first = some start

theorem startAddress_eq {entry : Option (Option Int)} {first : Option Int} {start : Int} (h : Start entry first start) :
    startAddress entry first = .ok start := by
  rcases h with rfl | ⟨rfl, rfl⟩
  · cases first <;> rfl
  · rfl

/-- Without the entry symbol or without code no file is written. -/
theorem C23_start_refused (entry : Option (Option Int)) (first : Option Int) (l : List Sect)
    (h : ¬ ∃ start, Start entry first start) : cocoFile entry first l = .fail ∧ pgzFile entry first l = .fail := by
  have : startAddress entry first = .fail := by
    match entry, first, h with
    | some (some v), _, h => exact absurd ⟨v, .inl rfl⟩ h
    | some none, some _, _ => rfl
    | some none, none, _ => rfl
    | none, some v, h => exact absurd ⟨v, .inr ⟨rfl, rfl⟩⟩ h
    | none, none, _ => rfl
  unfold cocoFile pgzFile
  rw [this]
  exact ⟨rfl, rfl⟩

/-! ## CoCo -/

theorem cocoBlocks_section (fuel : Nat) (s : Int × Bytes) (r : Bytes) (h0 : 0 ≤ s.1) (h1 : s.1 < 65536)
    (h2 : s.2.length < 65536) :
    cocoBlocks (fuel + 1) (cocoSection s ++ r) = (cocoBlocks fuel r).map fun q => ((s.1.toNat, s.2) :: q.1, q.2) := by
  rw [cocoBlocks]
  unfold cocoSection
  rw [Nat.mod_eq_of_lt h2, List.take_length, List.append_assoc, List.append_assoc, List.append_assoc]
  simp only [get8_put8 (show 0 < 256 by decide), get16be_put16be h2, u16_eq h0 h1,
    get16be_put16be (show s.1.toNat < 65536 by omega), getN_append]

theorem cocoBlocks_end (fuel : Nat) (start : Int) (h0 : 0 ≤ start) (h1 : start < 65536) :
    cocoBlocks (fuel + 1) (cocoEnd start) = some ([], start.toNat) := by
  have e : cocoEnd start = put8 0xFF ++ (put16be 0 ++ (put16be (u16 start) ++ [])) := by simp [cocoEnd]
  rw [e]
  unfold cocoBlocks
  simp only [get8_put8 (show 0xFF < 256 by decide), get16be_put16be (show 0 < 65536 by decide), u16_eq h0 h1,
    get16be_put16be (show start.toNat < 65536 by omega), Option.map_some]

theorem cocoBlocks_all (start : Int) (h0 : 0 ≤ start) (h1 : start < 65536) : ∀ (l : List (Int × Bytes)) (fuel : Nat),
    (∀ s ∈ l, 0 ≤ s.1 ∧ s.1 < 65536 ∧ s.2.length < 65536) → l.length < fuel →
    cocoBlocks fuel (l.flatMap cocoSection ++ cocoEnd start) = some (l.map fun s => (s.1.toNat, s.2), start.toNat)
  | [], fuel, _, hf => by
    obtain ⟨n, rfl⟩ : ∃ n, fuel = n + 1 := ⟨fuel - 1, by simp at hf; omega⟩
    exact cocoBlocks_end n start h0 h1
  | s :: l, fuel, h, hf => by
    obtain ⟨n, rfl⟩ : ∃ n, fuel = n + 1 := ⟨fuel - 1, by simp at hf; omega⟩
    obtain ⟨a, b, c⟩ := h s (by simp)
    rw [List.flatMap_cons, List.append_assoc, cocoBlocks_section n s _ a b c,
      cocoBlocks_all start h0 h1 l n (fun t ht => h t (by simp [ht])) (by simp at hf; omega)]
    rfl

theorem length_le_flatMap {α : Type} (f : α → Bytes) (h : ∀ a, 1 ≤ (f a).length) : ∀ l : List α,
    l.length ≤ (l.flatMap f).length
  | [] => by simp
  | a :: l => by
    have := length_le_flatMap f h l
    have := h a
    simp only [List.flatMap_cons, List.length_append, List.length_cons]; omega

/-- A CoCo file gives back every used section with its address, and the start address. -/
theorem C23_coco (entry : Option (Option Int)) (first : Option Int) (l : List Sect) (f : Bytes)
    (hs : ∀ s ∈ wanted l, 0 ≤ s.1 ∧ s.1 < 65536 ∧ s.2.length < 65536)
    (start : Int) (hst : Start entry first start) (h0 : 0 ≤ start) (h : cocoFile entry first l = .ok f) :
    cocoLoad f = some ((wanted l).map fun s => (s.1.toNat, s.2), start.toNat) := by
  rw [← loaded_eq] at hs ⊢
  unfold cocoFile at h
  rw [startAddress_eq hst] at h
  simp only at h
  by_cases hge : start ≥ 0x8000
  · rw [if_pos hge] at h; cases h
  · rw [if_neg hge] at h
    cases h
    unfold cocoLoad
    apply cocoBlocks_all start h0 (by omega) _ _ hs
    have := length_le_flatMap cocoSection (fun s => by simp [cocoSection, put8, put16be]) (loaded l)
    rw [List.length_append]; omega

/-- Nothing but a start address that is missing or above 0x7FFF makes the linker refuse to write the file. -/
theorem C23_coco_written (entry : Option (Option Int)) (first : Option Int) (l : List Sect) (start : Int)
    (hst : Start entry first start) (h : start < 0x8000) : ∃ f, cocoFile entry first l = .ok f := by
  unfold cocoFile
  rw [startAddress_eq hst]
  exact ⟨_, if_neg (by omega)⟩

/-- A start address from 0x8000 is refused. -/
theorem C23_coco_start_too_high (entry : Option (Option Int)) (first : Option Int) (l : List Sect) (start : Int)
    (hst : Start entry first start) (h : 0x8000 ≤ start) : cocoFile entry first l = .fail := by
  unfold cocoFile
  rw [startAddress_eq hst]
  exact if_pos h

/-- Two used sections, one without data and one that is not used. -/
def cocoExample : List Sect :=
  [⟨true, some [1, 2, 3], 0x1000⟩, ⟨true, none, 0x2000⟩, ⟨false, some [9], 0⟩, ⟨true, some [4], 0x3000⟩]

example : (∀ s ∈ wanted cocoExample, 0 ≤ s.1 ∧ s.1 < 65536 ∧ s.2.length < 65536) ∧
    cocoFile none (some 0x1000) cocoExample =
      .ok [0, 0, 3, 0x10, 0, 1, 2, 3, 0, 0, 1, 0x30, 0, 4, 0xFF, 0, 0, 0x10, 0] := by decide +kernel

/-- Sections of 64 KiB or more do not fit and are cut off without an error: here no byte is loaded. -/
theorem C23_coco_truncates : ∃ (l : List Sect) (f : Bytes), cocoFile (some (some 0)) none l = .ok f ∧
    (wanted l).length = 1 ∧ (∀ s ∈ wanted l, s.2.length = 65536) ∧ cocoLoad f = some ([(0, [])], 0) :=
  ⟨[⟨true, some (List.replicate 65536 1), 0⟩], _, rfl, rfl, by
    intro s hs
    have e : wanted [⟨true, some (List.replicate 65536 1), 0⟩] = [(0, List.replicate 65536 1)] := rfl
    rw [e, List.mem_singleton] at hs
    subst hs
    exact List.length_replicate, by
    have e : (loaded [⟨true, some (List.replicate 65536 1), 0⟩]) = [(0, List.replicate 65536 1)] := rfl
    rw [e]
    simp only [List.flatMap_cons, List.flatMap_nil, List.append_nil, cocoSection, List.length_replicate,
      show 65536 % 65536 = 0 from rfl, List.take_zero]
    decide +kernel⟩

/-! ## PGZ -/

def pgzSegment (s : Nat × Bytes) : Bytes := put32le s.1 ++ put32le s.2.length ++ s.2

theorem pgzSegments_all : ∀ (l : List (Nat × Bytes)) (fuel : Nat),
    (∀ s ∈ l, s.1 < 4294967296 ∧ s.2.length < 4294967296) → l.length ≤ fuel →
    pgzSegments fuel (l.flatMap pgzSegment) = some l
  | [], fuel, _, _ => by cases fuel <;> rfl
  | s :: l, fuel, h, hf => by
    obtain ⟨n, rfl⟩ : ∃ n, fuel = n + 1 := ⟨fuel - 1, by simp at hf; omega⟩
    obtain ⟨a, b⟩ := h s (by simp)
    have ih := pgzSegments_all l n (fun t ht => h t (by simp [ht])) (by simp at hf; omega)
    have e : (s :: l).flatMap pgzSegment = put32le s.1 ++ (put32le s.2.length ++ (s.2 ++ l.flatMap pgzSegment)) := by
      simp [pgzSegment]
    rw [e]
    have hne : ∃ x y, put32le s.1 ++ (put32le s.2.length ++ (s.2 ++ l.flatMap pgzSegment)) = x :: y :=
      ⟨_, _, rfl⟩
    obtain ⟨x, y, hxy⟩ := hne
    have hs : pgzSegments (n + 1) (x :: y) = match get32le (x :: y) with
      | some (addr, f) =>
        match get32le f with
        | some (size, f) =>
          match getN size f with
          | some (d, f) => (pgzSegments n f).map fun r => (addr, d) :: r
          | none => none
        | none => none
      | none => none := rfl
    rw [hxy, hs, ← hxy, get32le_put32le a]
    simp only
    rw [get32le_put32le b]
    simp only
    rw [getN_append]
    simp only
    rw [ih]
    rfl

theorem placedBytes_append (a b : List (Nat × Bytes)) : placedBytes (a ++ b) = placedBytes a ++ placedBytes b := by
  simp [placedBytes]

theorem placedBytes_join (a : Nat) (d e : Bytes) : placedBytes [(a, d ++ e)] = placedBytes [(a, d)] ++ placedBytes [(a + d.length, e)] := by
  simp only [placedBytes, List.flatMap_cons, List.flatMap_nil, List.append_nil, List.mapIdx_append]
  have e : (fun (i : Nat) (b : UInt8) => (a + (i + d.length), b)) = fun i b => (a + d.length + i, b) := by
    funext i b
    rw [Nat.add_comm i, ← Nat.add_assoc]
  rw [e]

open Verif.Image (writeAt)

theorem writeAt_patch (a old new b : Bytes) (h : new.length = old.length) (hne : new ≠ []) :
    writeAt (a ++ (old ++ b)) a.length new = a ++ (new ++ b) := by
  unfold writeAt
  rw [if_neg hne, show a.length - (a ++ (old ++ b)).length = 0 by simp, h, ← List.drop_drop]
  simp

/-- The file while segments are being written: complete ones and an open one. -/
structure Inv (st : Pgz) (done : List (Nat × Bytes)) (addr : Nat) (data : Bytes) : Prop where
  file : st.file = 0x7A :: (done.flatMap pgzSegment ++ put32le addr ++ put32le 0 ++ data)
  loc : st.sizeLoc = some (1 + (done.flatMap pgzSegment).length + 4)
  size : st.size = data.length
  next : st.next = addr + data.length
  lt : addr + data.length < 2147483648
  ok : ∀ s ∈ done, s.1 < 4294967296 ∧ s.2.length < 4294967296 ∧ s.2 ≠ []
  ne : data ≠ []

theorem close_eq {st : Pgz} {done : List (Nat × Bytes)} {addr : Nat} {data : Bytes} (h : Inv st done addr data) :
    pgzClose st = 0x7A :: ((done ++ [(addr, data)]).flatMap pgzSegment) := by
  unfold pgzClose
  rw [h.loc]
  simp only
  have hz : u32 st.size = data.length := by rw [h.size, u32_eq (by omega) (by have := h.lt; omega)]; omega
  rw [hz, h.file]
  rw [List.flatMap_append]
  have e : (0x7A :: (done.flatMap pgzSegment ++ put32le addr ++ put32le 0 ++ data) : Bytes) =
      (0x7A :: (done.flatMap pgzSegment ++ put32le addr)) ++ (put32le 0 ++ data) := by simp
  have hl : (0x7A :: (done.flatMap pgzSegment ++ put32le addr) : Bytes).length = 1 + (done.flatMap pgzSegment).length + 4 := by
    simp [put32le]; omega
  have e' : (0x7A :: (done.flatMap pgzSegment ++ [(addr, data)].flatMap pgzSegment) : Bytes) =
      (0x7A :: (done.flatMap pgzSegment ++ put32le addr)) ++ (put32le data.length ++ data) := by simp [pgzSegment]
  rw [e, e', ← hl]
  exact writeAt_patch _ _ _ _ (by simp [put32le]) (by simp [put32le])

theorem step_new {st : Pgz} {done : List (Nat × Bytes)} {addr : Nat} {data : Bytes} (h : Inv st done addr data)
    (s : Int × Bytes) (h0 : 0 ≤ s.1) (h1 : s.1 + s.2.length < 2147483648) (h2 : s.2 ≠ []) (hn : s.1 ≠ st.next) :
    Inv (pgzSection st s) (done ++ [(addr, data)]) s.1.toNat s.2 := by
  have hc := close_eq h
  have hu : u32 s.1 = s.1.toNat := u32_eq h0 (by omega)
  unfold pgzSection
  rw [if_pos hn, hc, hu]
  refine ⟨?_, ?_, ?_, ?_, by omega, ?_, h2⟩
  · simp
  · simp [put32le]; omega
  · dsimp only
    rw [i32_eq (by omega) (by omega)]; omega
  · have : i32 (s.1 + (s.2.length : Int)) = s.1.toNat + s.2.length := by rw [i32_eq (by omega) (by omega)]; omega
    exact this
  · intro t ht
    rcases List.mem_append.1 ht with ht | ht
    · exact h.ok t ht
    · have := h.lt
      simp only [List.mem_singleton] at ht
      subst ht
      exact ⟨by show addr < 4294967296; omega, by show data.length < 4294967296; omega, h.ne⟩

theorem step_same {st : Pgz} {done : List (Nat × Bytes)} {addr : Nat} {data : Bytes} (h : Inv st done addr data)
    (s : Int × Bytes) (h1 : s.1 + s.2.length < 2147483648) (hn : s.1 = st.next) :
    Inv (pgzSection st s) done addr (data ++ s.2) := by
  unfold pgzSection
  rw [if_neg (by simpa using hn)]
  have hnx := h.next
  have hsz := h.size
  refine ⟨?_, h.loc, ?_, ?_, ?_, h.ok, ?_⟩
  · show st.file ++ s.2 = _
    rw [h.file]; simp
  · show i32 (st.size + (s.2.length : Int)) = _
    rw [i32_eq (by omega) (by omega), hsz, List.length_append]; omega
  · show i32 (s.1 + (s.2.length : Int)) = _
    rw [i32_eq (by omega) (by omega), hn, hnx, List.length_append]; omega
  · rw [List.length_append]; omega
  · simp [h.ne]

/-- The first section. -/
theorem step_first (s : Int × Bytes) (h0 : 0 ≤ s.1) (h1 : s.1 + s.2.length < 2147483648) (h2 : s.2 ≠ []) :
    Inv (pgzSection ⟨[0x7A], none, -1, -1⟩ s) [] s.1.toNat s.2 := by
  unfold pgzSection
  rw [if_pos (by show s.1 ≠ -1; omega)]
  have hu : u32 s.1 = s.1.toNat := u32_eq h0 (by omega)
  refine ⟨?_, ?_, ?_, ?_, by omega, by simp, h2⟩
  · simp [pgzClose, hu]
  · simp [pgzClose, put32le]
  · dsimp only
    rw [i32_eq (by omega) (by omega)]; omega
  · have : i32 (s.1 + (s.2.length : Int)) = s.1.toNat + s.2.length := by rw [i32_eq (by omega) (by omega)]; omega
    exact this

def nat (s : Int × Bytes) : Nat × Bytes := (s.1.toNat, s.2)

theorem steps : ∀ (l : List (Int × Bytes)) (st : Pgz) (done : List (Nat × Bytes)) (addr : Nat) (data : Bytes),
    Inv st done addr data → (∀ s ∈ l, 0 ≤ s.1 ∧ s.1 + s.2.length < 2147483648 ∧ s.2 ≠ []) →
    ∃ done' addr' data', Inv (l.foldl pgzSection st) done' addr' data' ∧
      placedBytes (done' ++ [(addr', data')]) = placedBytes (done ++ [(addr, data)]) ++ placedBytes (l.map nat) ∧
      (l.foldl pgzSection st).next = match l.getLast? with
        | some s => s.1 + s.2.length
        | none => st.next
  | [], st, done, addr, data, h, _ => ⟨done, addr, data, h, by simp [placedBytes], rfl⟩
  | s :: l, st, done, addr, data, h, hs => by
    obtain ⟨h0, h1, h2⟩ := hs s (by simp)
    have hnx : (pgzSection st s).next = s.1 + s.2.length := by
      show i32 (s.1 + (s.2.length : Int)) = _
      rw [i32_eq (by omega) (by omega)]
    by_cases hn : s.1 = st.next
    · obtain ⟨d', a', x', i, p, n⟩ := steps l _ _ _ _ (step_same h s h1 hn) (fun t ht => hs t (by simp [ht]))
      refine ⟨d', a', x', i, ?_, ?_⟩
      · rw [p, placedBytes_append, placedBytes_append, placedBytes_join]
        have e : addr + data.length = s.1.toNat := by have := h.next; omega
        rw [e]
        simp [placedBytes, nat]
      · rw [List.foldl_cons, n]
        rcases List.eq_nil_or_concat l with rfl | ⟨l', t, rfl⟩
        · simpa using hnx
        · simp [List.getLast?_cons]
    · obtain ⟨d', a', x', i, p, n⟩ := steps l _ _ _ _ (step_new h s h0 h1 h2 hn) (fun t ht => hs t (by simp [ht]))
      refine ⟨d', a', x', i, ?_, ?_⟩
      · rw [p]
        simp [placedBytes, nat]
      · rw [List.foldl_cons, n]
        rcases List.eq_nil_or_concat l with rfl | ⟨l', t, rfl⟩
        · simpa using hnx
        · simp [List.getLast?_cons]

/-- A PGZ file gives back every byte of the used sections at its address, and one start address. -/
theorem C23_pgz (entry : Option (Option Int)) (first : Option Int) (l : List Sect) (f : Bytes)
    (hs : ∀ s ∈ wanted l, 0 ≤ s.1 ∧ s.1 + s.2.length < 2147483648 ∧ s.2 ≠ [])
    (start : Int) (hst : Start entry first start) (h0 : 0 ≤ start) (h1 : start < 2147483648)
    (hne : ∀ s, (wanted l).getLast? = some s → start ≠ s.1 + s.2.length) (h : pgzFile entry first l = .ok f) :
    pgzLoad f = some (placedBytes ((wanted l).map fun s => (s.1.toNat, s.2)), [start.toNat]) := by
  rw [← loaded_eq] at hs hne ⊢
  unfold pgzFile at h
  rw [startAddress_eq hst] at h
  cases h
  have hu : u32 start = start.toNat := u32_eq h0 (by omega)
  unfold pgzSections
  -- what is in the file
  suffices hd : ∃ done : List (Nat × Bytes),
      (∀ s ∈ done, s.1 < 4294967296 ∧ s.2.length < 4294967296 ∧ s.2 ≠ []) ∧
      placedBytes done = placedBytes ((loaded l).map nat) ∧
      (pgzSection ((loaded l).foldl pgzSection ⟨[0x7A], none, -1, -1⟩) (start, [])).file =
        0x7A :: (done ++ [(start.toNat, [])]).flatMap pgzSegment by
    obtain ⟨done, hok, hp, hf⟩ := hd
    rw [hf]
    unfold pgzLoad
    simp only
    rw [pgzSegments_all (done ++ [(start.toNat, [])])]
    · simp only [Option.map_some, Option.some.injEq, Prod.mk.injEq]
      constructor
      · rw [placedBytes_append, hp]
        exact List.append_nil _
      · rw [List.filter_append]
        have : done.filter (fun s => s.2.isEmpty) = [] := by
          rw [List.filter_eq_nil_iff]
          intro s hs
          simpa using (hok s hs).2.2
        rw [this]
        simp
    · intro s hs
      rcases List.mem_append.1 hs with hs | hs
      · exact ⟨(hok s hs).1, (hok s hs).2.1⟩
      · simp only [List.mem_singleton] at hs
        subst hs
        exact ⟨by show start.toNat < 4294967296; omega, by show (0 : Nat) < 4294967296; omega⟩
    · have := length_le_flatMap pgzSegment (fun s => by simp [pgzSegment, put32le])
        (done ++ [(start.toNat, [])])
      omega
  cases hl : loaded l with
  | nil =>
    refine ⟨[], by simp, rfl, ?_⟩
    unfold pgzSection
    rw [List.foldl_nil, if_pos (by show start ≠ -1; omega)]
    simp [pgzClose, hu, pgzSegment]
  | cons s l' =>
    rw [hl] at hs hne
    obtain ⟨s0, s1, s2⟩ := hs s (by simp)
    obtain ⟨d, a, x, i, p, n⟩ := steps l' _ _ _ _ (step_first s s0 s1 s2) (fun t ht => hs t (by simp [ht]))
    refine ⟨d ++ [(a, x)], ?_, ?_, ?_⟩
    · intro t ht
      rcases List.mem_append.1 ht with ht | ht
      · exact i.ok t ht
      · have := i.lt
        simp only [List.mem_singleton] at ht
        subst ht
        exact ⟨by show a < 4294967296; omega, by show x.length < 4294967296; omega, i.ne⟩
    · rw [p]
      simp [placedBytes, nat]
    · have hn : start ≠ (l'.foldl pgzSection (pgzSection ⟨[0x7A], none, -1, -1⟩ s)).next := by
        rw [n]
        rcases List.eq_nil_or_concat l' with rfl | ⟨l'', t, rfl⟩
        · have := hne s rfl
          show start ≠ i32 (s.1 + (s.2.length : Int))
          rw [i32_eq (by omega) (by omega)]
          exact this
        · have := hne t (by simp [List.getLast?_cons])
          simpa [List.getLast?_cons] using this
      rw [List.foldl_cons]
      generalize hg : l'.foldl pgzSection (pgzSection ⟨[0x7A], none, -1, -1⟩ s) = st at i hn ⊢
      unfold pgzSection
      rw [if_pos hn, close_eq i, hu]
      simp [pgzSegment]

/-- The file is written whenever there is a start address. -/
theorem C23_pgz_written (entry : Option (Option Int)) (first : Option Int) (l : List Sect) (start : Int)
    (hst : Start entry first start) : ∃ f, pgzFile entry first l = .ok f := by
  unfold pgzFile
  rw [startAddress_eq hst]
  exact ⟨_, rfl⟩

/-- Three sections; the first two are adjacent and share a segment. -/
def pgzExample : List Sect :=
  [⟨true, some [1, 2, 3], 0x1000⟩, ⟨true, some [4], 0x1003⟩, ⟨false, some [9], 0⟩, ⟨true, some [5, 6], 0x3000⟩]

example : (∀ s ∈ wanted pgzExample, 0 ≤ s.1 ∧ s.1 + s.2.length < 2147483648 ∧ s.2 ≠ []) ∧
    (wanted pgzExample).getLast? = some (0x3000, [5, 6]) ∧
    pgzFile (some (some 0x1003)) none pgzExample = .ok [0x7A, 0, 0x10, 0, 0, 4, 0, 0, 0, 1, 2, 3, 4,
      0, 0x30, 0, 0, 2, 0, 0, 0, 5, 6, 3, 0x10, 0, 0, 0, 0, 0, 0] ∧
    pgzLoad [0x7A, 0, 0x10, 0, 0, 4, 0, 0, 0, 1, 2, 3, 4, 0, 0x30, 0, 0, 2, 0, 0, 0, 5, 6, 3, 0x10, 0, 0, 0, 0, 0, 0] =
      some ([(0x1000, 1), (0x1001, 2), (0x1002, 3), (0x1003, 4), (0x3000, 5), (0x3001, 6)], [0x1003]) := by
  decide +kernel

/-- If the start address is the end of the last section, the file has no start address and the last segment no size. -/
theorem C23_pgz_start_at_end : ∃ (l : List Sect) (f : Bytes), pgzFile (some (some 0x1002)) none l = .ok f ∧
    (∀ s ∈ wanted l, 0 ≤ s.1 ∧ s.1 + s.2.length < 2147483648 ∧ s.2 ≠ []) ∧ pgzLoad f = none :=
  ⟨[⟨true, some [1, 2], 0x1000⟩], [0x7A, 0, 0x10, 0, 0, 0, 0, 0, 0, 1, 2], by decide +kernel, by decide, by decide +kernel⟩

/-- A section with no bytes becomes a second start address. -/
theorem C23_pgz_empty_section : ∃ (l : List Sect) (f : Bytes), pgzFile none (some 0x1000) l = .ok f ∧
    pgzLoad f = some ([(0x1000, 1), (0x1001, 2)], [0x2000, 0x1000]) :=
  ⟨[⟨true, some [1, 2], 0x1000⟩, ⟨true, some [], 0x2000⟩],
    [0x7A, 0, 0x10, 0, 0, 2, 0, 0, 0, 1, 2, 0, 0x20, 0, 0, 0, 0, 0, 0, 0, 0x10, 0, 0, 0, 0, 0, 0],
    by decide +kernel, by decide +kernel⟩

end Verif.Container
