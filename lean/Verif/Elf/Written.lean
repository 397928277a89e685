import Verif.Elf.Lemmas
/-!
# What the writer has put where
-/
namespace Verif.Elf
open Verif.Expr (Src)

/-- Nothing that has been written is changed. -/
structure W.Le (w w' : W) : Prop where
  file : w.file <+: w'.file
  strs : w.strs <+: w'.strs

theorem W.Le.refl (w : W) : w.Le w := ⟨List.prefix_refl _, List.prefix_refl _⟩
theorem W.Le.trans {a b c : W} (h : a.Le b) (h' : b.Le c) : a.Le c := ⟨h.file.trans h'.file, h.strs.trans h'.strs⟩

theorem W.align_ok {w w' : W} {n : Nat} (h : w.align n = .ok w') : n ≠ 0 ∧ w.Le w' ∧ w'.hdrs = w.hdrs ∧ w'.strs = w.strs := by
  unfold W.align at h
  split at h
  · cases h
  · cases h
    exact ⟨‹_›, ⟨List.prefix_append _ _, List.prefix_refl _⟩, rfl, rfl⟩

/-- A string is in the table. -/
def HasStr (strs : Bytes) (off : Nat) (s : Bytes) : Prop := At strs off (putSz s) ∧ off ≤ strs.length

theorem HasStr.mono {t t' : Bytes} (h : t <+: t') {off : Nat} {s : Bytes} (hs : HasStr t off s) : HasStr t' off s :=
  ⟨hs.1.mono h, Nat.le_trans hs.2 h.length_le⟩

theorem hasStr_add (w : W) (s : Bytes) : HasStr (w.addString s).2.strs (w.addString s).1 s :=
  ⟨at_end _ _, by show w.strs.length ≤ (w.strs ++ putSz s).length; rw [List.length_append]; omega⟩

/-- The header of a section: its number, its fields, and its contents in the file. -/
structure SecHdr (M : Mod) (file strs : Bytes) (s : ASec) (h : Shdr) : Prop where
  load : s.load ≠ some 0
  type : h.type = if s.text then 1 else 8
  flags : h.flags = if s.text then (if s.isData then 3 else 6) else 3
  addr : h.addr = s.load.getD 0
  size : h.size = s.used
  link : h.link = 0
  info : h.info = 0
  align : h.align = s.align.getD M.sectionAlignment
  entsize : h.entsize = 0
  name : HasStr strs h.name s.name
  offset : h.offset ≤ file.length
  data : s.text = true → ∃ d, clear s.alloc s.data s.patches = .ok d ∧ At file h.offset d ∧ 52 ≤ h.offset
  aligned : s.text = true → h.offset % s.align.getD M.sectionAlignment = 0

theorem SecHdr.mono {M : Mod} {f f' t t' : Bytes} (hf : f <+: f') (ht : t <+: t') {s : ASec} {h : Shdr} (hs : SecHdr M f t s h) :
    SecHdr M f' t' s h :=
  { hs with
    name := hs.name.mono ht
    offset := Nat.le_trans hs.offset hf.length_le
    data := fun hx => let ⟨d, h1, h2, h3⟩ := hs.data hx; ⟨d, h1, h2.mono hf, h3⟩ }

theorem W.align_mod {w w' : W} {n : Nat} (h : w.align n = .ok w') : w'.file.length % n = 0 := by
  unfold W.align at h
  split at h
  · cases h
  · cases h
    show (w.file ++ List.replicate _ _).length % n = 0
    rw [List.length_append, List.length_replicate]
    split
    · assumption
    · have h2 := Nat.mod_lt w.file.length (Nat.pos_of_ne_zero ‹n ≠ 0›)
      have h3 := Nat.div_add_mod w.file.length n
      have : w.file.length + (n - w.file.length % n) = n * (w.file.length / n + 1) := by rw [Nat.mul_add]; omega
      rw [this, Nat.mul_mod_right]

theorem writeSection_ok {M : Mod} {s : ASec} {w w' : W} (h : writeSection M s w = .ok w') (h52 : 52 ≤ w.file.length) :
    w.Le w' ∧ ∃ hd, w'.hdrs = w.hdrs ++ [hd] ∧ SecHdr M w'.file w'.strs s hd := by
  unfold writeSection at h
  split at h
  · cases h
  · rename_i hl
    obtain ⟨v, hv, h⟩ := bind_ok h
    obtain ⟨_, hle, hh, hst⟩ := W.align_ok hv
    have h52' : 52 ≤ v.file.length := Nat.le_trans h52 hle.file.length_le
    simp only at h
    split at h
    · rename_i ht
      obtain ⟨d, hd, h⟩ := bind_ok h
      cases h
      refine ⟨⟨hle.file.trans (List.prefix_append _ _), hle.strs.trans (List.prefix_append _ _)⟩, _, congrArg (· ++ _) hh, ?_⟩
      refine ⟨hl, ?_, ?_, rfl, rfl, rfl, rfl, rfl, rfl, hasStr_add v s.name, ?_, fun _ => ⟨d, hd, at_end _ _, h52'⟩, ?_⟩
      · rw [ht]; rfl
      · rw [ht]; rfl
      · show v.file.length ≤ (v.file ++ d).length
        rw [List.length_append]; omega
      · intro _
        exact (W.align_mod hv :)
    · rename_i ht
      cases h
      refine ⟨⟨hle.file, hle.strs.trans (List.prefix_append _ _)⟩, _, congrArg (· ++ _) hh, ?_⟩
      refine ⟨hl, (if_neg ht).symm, (if_neg ht).symm, rfl, rfl, rfl, rfl, rfl, rfl, hasStr_add v s.name, Nat.zero_le _,
        fun h => absurd h ht, fun h => absurd h ht⟩

/-- Two lists are related element by element. -/
inductive All₂ (R : α → β → Prop) : List α → List β → Prop where
  | nil : All₂ R [] []
  | cons : R a b → All₂ R as bs → All₂ R (a :: as) (b :: bs)

theorem All₂.imp {R S : α → β → Prop} (h : ∀ a b, R a b → S a b) : ∀ {l : List α} {m : List β}, All₂ R l m → All₂ S l m := by
  intro l m hl
  induction hl with
  | nil => exact .nil
  | cons h1 _ ih => exact .cons (h _ _ h1) ih

theorem All₂.length_eq {R : α → β → Prop} {l : List α} {m : List β} (h : All₂ R l m) : l.length = m.length := by
  induction h with
  | nil => rfl
  | cons _ _ ih => simp [ih]

theorem All₂.get {R : α → β → Prop} {l : List α} {m : List β} (h : All₂ R l m) :
    ∀ {i : Nat} {a : α} {b : β}, l[i]? = some a → m[i]? = some b → R a b := by
  induction h with
  | nil => intro i a b ha; simp at ha
  | cons h1 _ ih =>
    intro i a b ha hb
    cases i with
    | zero => cases ha; cases hb; exact h1
    | succ i => exact ih ha hb

theorem All₂.right {R : α → β → Prop} {l : List α} {m : List β} (h : All₂ R l m) : ∀ b ∈ m, ∃ a ∈ l, R a b := by
  induction h with
  | nil => intro b hb; cases hb
  | cons h1 _ ih =>
    intro b hb
    rcases List.mem_cons.1 hb with rfl | hb
    · exact ⟨_, by simp, h1⟩
    · obtain ⟨a, ha, hR⟩ := ih b hb
      exact ⟨a, by simp [ha], hR⟩

theorem writeSections_ok {M : Mod} : ∀ {ss : List ASec} {w w' : W}, writeSections M ss w = .ok w' → 52 ≤ w.file.length →
    w.Le w' ∧ ∃ hs, w'.hdrs = w.hdrs ++ hs ∧ All₂ (SecHdr M w'.file w'.strs) ss hs := by
  intro ss
  induction ss with
  | nil =>
    intro w w' h _
    cases h
    exact ⟨.refl _, [], by simp, .nil⟩
  | cons s ss ih =>
    intro w w' h h52
    rw [writeSections] at h
    obtain ⟨v, hv, h⟩ := bind_ok h
    obtain ⟨hle, hd, hhd, hs⟩ := writeSection_ok hv h52
    obtain ⟨hle', hs', hhs, hall⟩ := ih h (Nat.le_trans h52 hle.file.length_le)
    refine ⟨hle.trans hle', hd :: hs', ?_, .cons (hs.mono hle'.file hle'.strs) hall⟩
    rw [hhs, hhd, List.append_assoc]
    rfl

/-- A symbol in the table: name, value, and the number of its section. -/
structure SymRec (be : Bool) (M : Mod) (bind : Nat) (strs : Bytes) (y : ASym) (r : Nat × Nat) : Prop where
  sec : M.shndx y = .ok r.2
  name : HasStr strs r.1 y.name
  pos : 0 < r.1

theorem writeSymbols_ok {be : Bool} {M : Mod} {bind : Nat} : ∀ {ys : List ASym} {w w' : W}, writeSymbols be M bind ys w = .ok w' →
    0 < w.strs.length → w.Le w' ∧ w'.hdrs = w.hdrs ∧ ∃ rs, All₂ (SymRec be M bind w'.strs) ys rs ∧
      w'.file = w.file ++ (ys.zip rs).flatMap fun (y, r) => symRecord be r.1 y.value (bind * 16) r.2 := by
  intro ys
  induction ys with
  | nil =>
    intro w w' h _
    cases h
    exact ⟨.refl _, rfl, [], .nil, by simp⟩
  | cons y ys ih =>
    intro w w' h h0
    rw [writeSymbols] at h
    obtain ⟨k, hk, h⟩ := bind_ok h
    simp only at h
    obtain ⟨hle, hh, rs, hall, hf⟩ := ih h (by
      show 0 < (w.strs ++ putSz y.name).length
      rw [List.length_append]; omega)
    refine ⟨⟨List.IsPrefix.trans (List.prefix_append _ _) hle.file, List.IsPrefix.trans (List.prefix_append _ _) hle.strs⟩, hh,
      (w.strs.length, k) :: rs, .cons ⟨hk, (hasStr_add w y.name).mono hle.strs, h0⟩ hall, ?_⟩
    rw [hf, List.zip_cons_cons, List.flatMap_cons]
    show (w.file ++ _) ++ _ = _
    rw [List.append_assoc]
    rfl

/-- The header of the relocations of section `i`. -/
structure RelHdr (be : Bool) (M : Mod) (file strs : Bytes) (i : Nat) (s : ASec) (h : Shdr) : Prop where
  relocs : ∃ rs, relocs M s.patches = .ok rs ∧ At file h.offset ((sortRela rs).flatMap (Rela.put be)) ∧ h.size = rs.length * 12
  type : h.type = 4
  flags : h.flags = 0
  addr : h.addr = 0
  link : h.link = 1
  info : h.info = secId i
  align : h.align = 0
  entsize : h.entsize = 12
  name : HasStr strs h.name (s.name ++ [0x2E, 0x72, 0x65, 0x6C, 0x6F, 0x63])
  offset : h.offset ≤ file.length
  above : 52 ≤ h.offset

theorem RelHdr.mono {be : Bool} {M : Mod} {f f' t t' : Bytes} (hf : f <+: f') (ht : t <+: t') {i : Nat} {s : ASec} {h : Shdr}
    (hs : RelHdr be M f t i s h) : RelHdr be M f' t' i s h :=
  { hs with
    relocs := let ⟨rs, h1, h2, h3⟩ := hs.relocs; ⟨rs, h1, h2.mono hf, h3⟩
    name := hs.name.mono ht
    offset := Nat.le_trans hs.offset hf.length_le }

theorem length_sortRela (rs : List Rela) : (sortRela rs).length = rs.length := List.length_mergeSort _

theorem writeReloc_ok {be : Bool} {M : Mod} {i : Nat} {s : ASec} {w w' : W} (h : writeReloc be M i s w = .ok w')
    (h52 : 52 ≤ w.file.length) : w.Le w' ∧ ∃ hd, w'.hdrs = w.hdrs ++ [hd] ∧ RelHdr be M w'.file w'.strs i s hd := by
  unfold writeReloc at h
  obtain ⟨v, hv, h⟩ := bind_ok h
  obtain ⟨_, hle, hh, hst⟩ := W.align_ok hv
  have h52' : 52 ≤ v.file.length := Nat.le_trans h52 hle.file.length_le
  obtain ⟨rs, hrs, h⟩ := bind_ok h
  simp only at h
  cases h
  refine ⟨⟨hle.file.trans (List.prefix_append _ _), hle.strs.trans (List.prefix_append _ _)⟩, _, congrArg (· ++ _) hh, ?_⟩
  refine ⟨⟨rs, hrs, at_end _ _, ?_⟩, rfl, rfl, rfl, rfl, rfl, rfl, rfl, hasStr_add _ _, ?_, h52'⟩
  · show (v.file ++ _).length - v.file.length = _
    rw [List.length_append, Nat.add_sub_cancel_left, length_flatMap (n := 12) (fun b _ => length_rela be b), length_sortRela]
  · show v.file.length ≤ (v.file ++ _).length
    rw [List.length_append]; omega

/-- The headers of the relocations, section by section. -/
inductive RelHdrs (be : Bool) (M : Mod) (file strs : Bytes) : Nat → List ASec → List Shdr → Prop where
  | nil : RelHdrs be M file strs i [] []
  | cons : RelHdr be M file strs i s h → RelHdrs be M file strs (i + 1) ss hs → RelHdrs be M file strs i (s :: ss) (h :: hs)

theorem RelHdrs.mono {be : Bool} {M : Mod} {f f' t t' : Bytes} (hf : f <+: f') (ht : t <+: t') {i : Nat} {ss : List ASec}
    {hs : List Shdr} (h : RelHdrs be M f t i ss hs) : RelHdrs be M f' t' i ss hs := by
  induction h with
  | nil => exact .nil
  | cons h1 _ ih => exact .cons (h1.mono hf ht) ih

theorem writeRelocs_ok {be : Bool} {M : Mod} : ∀ {ss : List ASec} {i : Nat} {w w' : W}, writeRelocs be M i ss w = .ok w' →
    52 ≤ w.file.length → w.Le w' ∧ ∃ hs, w'.hdrs = w.hdrs ++ hs ∧ RelHdrs be M w'.file w'.strs i ss hs := by
  intro ss
  induction ss with
  | nil =>
    intro i w w' h _
    cases h
    exact ⟨.refl _, [], by simp, .nil⟩
  | cons s ss ih =>
    intro i w w' h h52
    rw [writeRelocs] at h
    obtain ⟨v, hv, h⟩ := bind_ok h
    obtain ⟨hle, hd, hhd, hs⟩ := writeReloc_ok hv h52
    obtain ⟨hle', hs', hhs, hall⟩ := ih h (Nat.le_trans h52 hle.file.length_le)
    refine ⟨hle.trans hle', hd :: hs', ?_, .cons (hs.mono hle'.file hle'.strs) hall⟩
    rw [hhs, hhd, List.append_assoc]
    rfl

/-- What is in a file: its header, and what its section headers refer to. -/
structure Written (be : Bool) (M : Mod) (file : Bytes) (strs : Bytes) (hdrs : List Shdr) : Prop where
  header : ∃ shoff rest, file = elfHeader be shoff hdrs.length 2 ++ rest ∧ (52 ≤ shoff ∧ shoff ≤ file.length) ∧ At file shoff (hdrs.flatMap (Shdr.put be))
  strsLength : strs.length ≤ file.length
  zero : HasStr strs 0 []
  parts : ∃ sy st hs rs ls gs, hdrs = ⟨0, 0, 0, 0, 0, 0, 0, 0, 0, 0⟩ :: sy :: st :: (hs ++ rs) ∧
    All₂ (SecHdr M file strs) M.secs hs ∧ RelHdrs be M file strs 0 M.secs rs ∧
    All₂ (SymRec be M 0 strs) M.locals ls ∧ All₂ (SymRec be M 1 strs) M.globals gs ∧
    (∃ off, sy = ⟨1, 2, 0, 0, off, (1 + M.locals.length + M.globals.length) * 16, 2, 1 + M.locals.length, 0, 16⟩ ∧ off ≤ file.length ∧
      At file off (symRecord be 0 0 0 0 ++ (((M.locals.zip ls).flatMap fun (y, r) => symRecord be r.1 y.value 0 r.2) ++
        (M.globals.zip gs).flatMap fun (y, r) => symRecord be r.1 y.value 16 r.2))) ∧
    (∃ off, st = ⟨9, 3, 0, 0, off, strs.length, 0, 0, 0, 0⟩ ∧ off ≤ file.length ∧ At file off strs) ∧
    HasStr strs 1 [0x2E, 0x73, 0x79, 0x6D, 0x74, 0x61, 0x62] ∧ HasStr strs 9 [0x2E, 0x73, 0x74, 0x72, 0x74, 0x61, 0x62]

theorem SecHdr.swap {M : Mod} {h h' r t : Bytes} (hl : h.length = 52) (hl' : h'.length = 52) {s : ASec} {hd : Shdr}
    (hs : SecHdr M (h ++ r) t s hd) : SecHdr M (h' ++ r) t s hd :=
  { hs with
    offset := by have := hs.offset; rw [List.length_append] at *; omega
    data := fun hx => let ⟨d, h1, h2, h3⟩ := hs.data hx; ⟨d, h1, h2.swap (by omega) (by omega), h3⟩ }

theorem RelHdr.swap {be : Bool} {M : Mod} {h h' r t : Bytes} (hl : h.length = 52) (hl' : h'.length = 52) {i : Nat} {s : ASec} {hd : Shdr}
    (hs : RelHdr be M (h ++ r) t i s hd) : RelHdr be M (h' ++ r) t i s hd :=
  { hs with
    relocs := let ⟨rs, h1, h2, h3⟩ := hs.relocs; ⟨rs, h1, h2.swap (by omega) (by have := hs.above; omega), h3⟩
    offset := by have := hs.offset; rw [List.length_append] at *; omega }

theorem RelHdrs.swap {be : Bool} {M : Mod} {h h' r t : Bytes} (hl : h.length = 52) (hl' : h'.length = 52) {i : Nat} {ss : List ASec}
    {hs : List Shdr} (hh : RelHdrs be M (h ++ r) t i ss hs) : RelHdrs be M (h' ++ r) t i ss hs := by
  induction hh with
  | nil => exact .nil
  | cons h1 _ ih => exact .cons (h1.swap hl hl') ih

theorem SymRec.mono {be : Bool} {M : Mod} {b : Nat} {t t' : Bytes} (ht : t <+: t') {y : ASym} {r : Nat × Nat} (h : SymRec be M b t y r) :
    SymRec be M b t' y r := { h with name := h.name.mono ht }

theorem start_file (be : Bool) : (start be).file = elfHeader be 0 0 0 := rfl
theorem start_strs (be : Bool) : (start be).strs = [0] ++ putSz [0x2E, 0x73, 0x79, 0x6D, 0x74, 0x61, 0x62] ++
  putSz [0x2E, 0x73, 0x74, 0x72, 0x74, 0x61, 0x62] := rfl
theorem start_hdrs (be : Bool) : (start be).hdrs =
  [⟨0, 0, 0, 0, 0, 0, 0, 0, 0, 0⟩, ⟨1, 2, 0, 0, 0, 0, 0, 0, 0, 16⟩, ⟨9, 3, 0, 0, 0, 0, 0, 0, 0, 0⟩] := rfl

theorem zip_length {R : α → β → Prop} {l : List α} {m : List β} (h : All₂ R l m) : (l.zip m).length = l.length := by
  rw [List.length_zip, ← h.length_eq, Nat.min_self]

theorem write_ok {be : Bool} {M : Mod} {file : Bytes} (h : write be M = .ok file) : ∃ strs hdrs, Written be M file strs hdrs := by
  unfold write at h
  obtain ⟨w1, h1, h⟩ := bind_ok h
  obtain ⟨w2, h2, h⟩ := bind_ok h
  obtain ⟨w3, h3, h⟩ := bind_ok h
  obtain ⟨w4, h4, h⟩ := bind_ok h
  -- the sections
  have h52 : 52 ≤ (start be).file.length := by rw [start_file, length_elfHeader]; exact Nat.le_refl _
  obtain ⟨l1, hs, e1, a1⟩ := writeSections_ok h1 h52
  rw [start_hdrs] at e1
  have h52_1 := Nat.le_trans h52 l1.file.length_le
  -- the symbols
  unfold writeSymbolSection at h2
  obtain ⟨v1, hv1, h2⟩ := bind_ok h2
  obtain ⟨_, l2, eh, es⟩ := W.align_ok hv1
  have h52_2 := Nat.le_trans h52_1 l2.file.length_le
  obtain ⟨v2, hv2, h2⟩ := bind_ok h2
  have hpos : 0 < v1.strs.length := by
    have := (l1.trans l2).strs.length_le
    rw [start_strs] at this
    exact Nat.lt_of_lt_of_le (by decide) this
  obtain ⟨l3, eh3, ls, als, ef3⟩ := writeSymbols_ok hv2 hpos
  obtain ⟨v3, hv3, h2⟩ := bind_ok h2
  obtain ⟨l4, eh4, gs, ags, ef4⟩ := writeSymbols_ok hv3 (Nat.lt_of_lt_of_le hpos l3.strs.length_le)
  have eh4' : v3.hdrs = [⟨0, 0, 0, 0, 0, 0, 0, 0, 0, 0⟩, ⟨1, 2, 0, 0, 0, 0, 0, 0, 0, 16⟩, ⟨9, 3, 0, 0, 0, 0, 0, 0, 0, 0⟩] ++ hs := by
    rw [eh4, eh3]
    exact eh.trans e1
  rw [eh4'] at h2
  simp only [List.cons_append, List.getElem?_cons_succ, List.getElem?_cons_zero, List.set_cons_succ, List.set_cons_zero, List.nil_append] at h2
  cases h2
  -- the relocations
  obtain ⟨l5, rs, e5, a5⟩ := writeRelocs_ok h3 (by
    show 52 ≤ v3.file.length
    exact Nat.le_trans h52_2 (Nat.le_trans (List.prefix_append v1.file _).length_le (l3.trans l4).file.length_le))
  -- the strings
  unfold writeStrings at h4
  obtain ⟨v5, hv5, h4⟩ := bind_ok h4
  obtain ⟨_, l6, eh6, es6⟩ := W.align_ok hv5
  rw [eh6, e5] at h4
  simp only [List.cons_append, List.getElem?_cons_succ, List.getElem?_cons_zero, List.set_cons_succ, List.set_cons_zero] at h4
  cases h4
  -- the headers
  unfold writeSectionHeaders at h
  obtain ⟨v6, hv6, h⟩ := bind_ok h
  obtain ⟨_, l7, eh7, es7⟩ := W.align_ok hv6
  -- the file before its header is completed
  have p6 : v5.file <+: v6.file := (List.prefix_append v5.file v5.strs).trans l7.file
  have p3 : v3.file <+: v5.file := l5.file.trans l6.file
  have p1 : w1.file <+: v3.file := l2.file.trans ((List.prefix_append v1.file (symRecord be 0 0 0 0)).trans (l3.trans l4).file)
  have p0 : elfHeader be 0 0 0 <+: v6.file := (start_file be ▸ l1.file).trans (p1.trans (p3.trans p6))
  obtain ⟨rest, hrest⟩ := p0
  cases h
  have q3 : v3.strs <+: v5.strs := l5.strs.trans l6.strs
  have q1 : w1.strs <+: v3.strs := l2.strs.trans (l3.trans l4).strs
  have q0 : (start be).strs <+: v5.strs := l1.strs.trans (q1.trans q3)
  have final : v6.file ++ v6.hdrs.flatMap (Shdr.put be) = elfHeader be 0 0 0 ++ (rest ++ v6.hdrs.flatMap (Shdr.put be)) := by
    rw [← hrest, List.append_assoc]
  have hover := overwritten be (rest ++ v6.hdrs.flatMap (Shdr.put be)) v6.file.length v6.hdrs.length
  rw [← final] at hover
  rw [hover]
  have hl6 : v6.file.length = 52 + rest.length := by rw [← hrest, List.length_append, length_elfHeader]
  have pr : v6.file <+: elfHeader be 0 0 0 ++ (rest ++ v6.hdrs.flatMap (Shdr.put be)) := final ▸ List.prefix_append _ _
  have L0 := length_elfHeader be 0 0 0
  have L1 := length_elfHeader be v6.file.length v6.hdrs.length 2
  have len : (elfHeader be v6.file.length v6.hdrs.length 2 ++ (rest ++ v6.hdrs.flatMap (Shdr.put be))).length =
      v6.file.length + (v6.hdrs.flatMap (Shdr.put be)).length := by
    rw [List.length_append, List.length_append, L1, hl6]; omega
  refine ⟨v5.strs, v6.hdrs, ?_⟩
  refine ⟨⟨v6.file.length, _, rfl, ?_, ?_⟩, ?_, ?_, ?_⟩
  · rw [len]; exact ⟨by omega, by omega⟩
  · have := at_end v6.file (v6.hdrs.flatMap (Shdr.put be))
    rw [final] at this
    exact this.swap (by rw [L0, L1]) (by rw [L0, hl6]; omega)
  · have := l7.file.length_le
    rw [len]
    simp only [List.length_append] at this
    omega
  · refine HasStr.mono q0 ⟨⟨_, rfl⟩, Nat.zero_le _⟩
  · refine ⟨_, _, hs, rs, ls, gs, eh7, ?_, ?_, ?_, ?_, ⟨v1.file.length, ?_, ?_, ?_⟩, ⟨v5.file.length, rfl, ?_, ?_⟩, ?_, ?_⟩
    · exact a1.imp fun s hd hh => (hh.mono (p1.trans (p3.trans (p6.trans pr))) (q1.trans q3)).swap L0 L1
    · exact (a5.mono (l6.file.trans (p6.trans pr)) l6.strs).swap L0 L1
    · exact als.imp fun y r hr => hr.mono (l4.strs.trans q3)
    · exact ags.imp fun y r hr => hr.mono q3
    · congr 1
      rw [ef4, ef3]
      show ((((v1.file ++ _) ++ _) ++ _).length - _ = _)
      rw [List.length_append, List.length_append, List.length_append, length_symRecord,
        length_flatMap (n := 16) (fun _ _ => length_symRecord be _ _ _ _), length_flatMap (n := 16) (fun _ _ => length_symRecord be _ _ _ _),
        zip_length als, zip_length ags]
      omega
    · have := (l3.trans l4).file.length_le
      have := p3.length_le
      have := p6.length_le
      simp only [W.put, List.length_append] at *
      omega
    · have e : v3.file = v1.file ++ (symRecord be 0 0 0 0 ++ (((M.locals.zip ls).flatMap fun (y, r) => symRecord be r.1 y.value 0 r.2) ++
        (M.globals.zip gs).flatMap fun (y, r) => symRecord be r.1 y.value 16 r.2)) := by
        rw [ef4, ef3]
        show ((v1.file ++ _) ++ _) ++ _ = _
        simp only [List.append_assoc]
      have := at_end v1.file (symRecord be 0 0 0 0 ++ (((M.locals.zip ls).flatMap fun (y, r) => symRecord be r.1 y.value 0 r.2) ++
        (M.globals.zip gs).flatMap fun (y, r) => symRecord be r.1 y.value 16 r.2))
      rw [← e] at this
      exact (this.mono (p3.trans (p6.trans pr))).swap (by rw [L0, L1]) (by rw [L0]; exact h52_2)
    · have := p6.length_le
      omega
    · have := at_end v5.file v5.strs
      refine (this.mono (l7.file.trans pr)).swap (by rw [L0, L1]) ?_
      rw [L0]
      have := (p1.trans p3).length_le
      omega
    · exact HasStr.mono q0 ⟨⟨_, rfl⟩, by rw [start_strs]; decide⟩
    · exact HasStr.mono q0 ⟨⟨[], rfl⟩, by rw [start_strs]; decide⟩

end Verif.Elf
