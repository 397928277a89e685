import Verif.Elf.Written
import Verif.Elf.Spec
/-!
# What the reader sees in a file that the writer has written
-/
namespace Verif.Elf
open Verif.Expr (Src)

theorem mapO_all₂ {f : α → Outcome β} {R : γ → α → Prop} {S : γ → β → Prop} {c : List γ} {l : List α} (h : All₂ R c l)
    (hf : ∀ x ∈ c, ∀ a, R x a → ∃ b, f a = .ok b ∧ S x b) : ∃ l', mapO f l = .ok l' ∧ All₂ S c l' := by
  induction h with
  | nil => exact ⟨[], rfl, .nil⟩
  | cons h1 _ ih =>
    obtain ⟨b, hb, hS⟩ := hf _ (by simp) _ h1
    obtain ⟨l', hl, hS'⟩ := ih fun x hx a ha => hf x (by simp [hx]) a ha
    exact ⟨b :: l', mapO_cons hb hl, .cons hS hS'⟩

theorem length_clear : ∀ {ps : List APatch} {alloc : Nat} {data d : Bytes}, clear alloc data ps = .ok d → d.length = data.length := by
  intro ps
  induction ps with
  | nil => intro alloc data d h; cases h; rfl
  | cons p ps ih =>
    intro alloc data d h
    rw [clear] at h
    split at h
    · rw [ih h]; simp only [List.length_set]
    · cases h

theorem get_clear : ∀ {ps : List APatch} {alloc : Nat} {data d : Bytes}, clear alloc data ps = .ok d →
    ∀ {j : Nat}, (∀ p ∈ ps, ¬ (p.offset ≤ j ∧ j < p.offset + 4)) → d[j]? = data[j]? := by
  intro ps
  induction ps with
  | nil => intro alloc data d h j _; cases h; rfl
  | cons p ps ih =>
    intro alloc data d h j hj
    rw [clear] at h
    split at h
    · have := hj p (by simp)
      rw [ih h fun q hq => hj q (by simp [hq]), List.getElem?_set_ne (by omega), List.getElem?_set_ne (by omega),
        List.getElem?_set_ne (by omega), List.getElem?_set_ne (by omega)]
    · cases h

theorem symOffset_sym' {syms : List ASym} {n m add : Nat} {i : Bool} (h : symOffset syms i (.sym m) = some (n, add)) :
    add = 0 ∧ n = m ∧ ∃ y, syms[n]? = some y ∧ (if i then y.kind.isImport else y.kind.isSymbolic) = true := by
  unfold symOffset at h
  split at h
  · rename_i y hy
    by_cases hk : (if i = true then y.kind.isImport else y.kind.isSymbolic) = true
    · rw [if_pos hk] at h
      cases h
      exact ⟨rfl, rfl, y, hy, hk⟩
    · rw [if_neg hk] at h
      cases h
  · cases h

theorem symOffset_bin {syms : List ASym} {op : Expr.BinOp} {a b : Src} {n add : Nat} {i : Bool}
    (h : symOffset syms i (.bin op a b) = some (n, add)) :
    (op = .add ∨ op = .sub) ∧ ((∃ off c, symOffset syms true a = some (n, off) ∧ b = .num c ∧
        add = if op = .add then add32 off (Expr.u32 c) else sub32 off (Expr.u32 c)) ∨
      (∃ off c, symOffset syms true b = some (n, off) ∧ a = .num c ∧
        add = if op = .add then add32 (Expr.u32 c) off else sub32 (Expr.u32 c) off)) := by
  unfold symOffset at h
  by_cases hop : op = .add ∨ op = .sub
  · rw [if_pos hop] at h
    refine ⟨hop, ?_⟩
    split at h
    · rename_i n' off c ha
      cases h
      exact .inl ⟨off, c, ha, rfl, rfl⟩
    · split at h
      · rename_i n' off c hb _
        cases h
        exact .inr ⟨off, c, hb, rfl, rfl⟩
      · cases h
  · rw [if_neg hop] at h
    cases h

theorem symOffset_lt {syms : List ASym} {e : Src} {i : Bool} {n add : Nat} (h : symOffset syms i e = some (n, add)) : add < W32 := by
  cases e with
  | sym m => rw [(symOffset_sym' h).1]; decide
  | bin op a b =>
    have hm : ∀ x : Nat, x % W32 < W32 := fun x => Nat.mod_lt _ (by decide)
    obtain ⟨-, ⟨off, c, -, -, rfl⟩ | ⟨off, c, -, -, rfl⟩⟩ := symOffset_bin h
    · split <;> exact hm _
    · split <;> exact hm _
  | _ => cases h

theorem symOffset_sym {syms : List ASym} : ∀ {e : Src} {imports : Bool} {n add : Nat}, symOffset syms imports e = some (n, add) →
    ∃ y, syms[n]? = some y ∧ y.kind.isSymbolic = true := by
  intro e
  induction e with
  | sym m =>
    intro i n add h
    obtain ⟨-, -, y, hy, hk⟩ := symOffset_sym' h
    refine ⟨y, hy, ?_⟩
    revert hk
    cases i <;> cases y.kind <;> decide
  | bin op a b iha ihb =>
    intro i n add h
    obtain ⟨-, ⟨off, c, ha, -, -⟩ | ⟨off, c, hb, -, -⟩⟩ := symOffset_bin h
    · exact iha ha
    · exact ihb hb
  | _ => intro i m add h; cases h

/-- The relocation of a patch. -/
def RelOf (M : Mod) (p : APatch) (r : Rela) : Prop := ∃ n add y, symOffset M.syms false p.expr = some (n, add) ∧ M.syms[n]? = some y ∧
  y.kind.isSymbolic = true ∧ r = ⟨p.offset, (M.symId n * 256 + 1) % W32, add⟩

theorem relocs_ok {M : Mod} : ∀ {ps : List APatch} {rs : List Rela}, relocs M ps = .ok rs → All₂ (RelOf M) ps rs := by
  intro ps
  induction ps with
  | nil => intro rs h; cases h; exact .nil
  | cons p ps ih =>
    intro rs h
    rw [relocs] at h
    split at h
    · cases h
    · rename_i n add hs
      obtain ⟨rs', hr, h⟩ := bind_ok h
      cases h
      obtain ⟨y, hy, hk⟩ := symOffset_sym hs
      exact .cons ⟨n, add, y, hs, hy, hk, rfl⟩ (ih hr)

theorem All₂.perm {R : α → β → Prop} {m m' : List β} (hp : m.Perm m') : ∀ {l : List α}, All₂ R l m → ∃ l', l.Perm l' ∧ All₂ R l' m' := by
  induction hp with
  | nil => intro l h; exact ⟨l, .refl _, h⟩
  | cons b _ ih =>
    intro l h
    cases h with
    | cons h1 h2 =>
      obtain ⟨l', hl, hR⟩ := ih h2
      exact ⟨_ :: l', hl.cons _, .cons h1 hR⟩
  | swap b c m =>
    intro l h
    cases h with
    | cons h1 h2 => cases h2 with
      | cons h3 h4 => exact ⟨_, .swap _ _ _, .cons h3 (.cons h1 h4)⟩
  | trans _ _ ih1 ih2 =>
    intro l h
    obtain ⟨l1, hl1, hR1⟩ := ih1 h
    obtain ⟨l2, hl2, hR2⟩ := ih2 hR1
    exact ⟨l2, hl1.trans hl2, hR2⟩

/-- The relocation as it is read. -/
def Rela.e (r : Rela) : ERela := ⟨r.offset, r.info / 256, r.info % 256, r.addend⟩

/-- The relocations of a section as they are read. -/
def RelsOf (M : Mod) (s : ASec) (l : List ERela) : Prop := ∃ ps rs, List.Perm ps s.patches ∧ All₂ (RelOf M) ps rs ∧ l = rs.map Rela.e

theorem relsOf {M : Mod} {s : ASec} {rs : List Rela} (h : relocs M s.patches = .ok rs) : RelsOf M s ((sortRela rs).map Rela.e) := by
  have h1 := relocs_ok h
  obtain ⟨ps, hp, ha⟩ := h1.perm (List.mergeSort_perm rs (fun a b => decide (a.offset ≤ b.offset))).symm
  exact ⟨ps, _, hp.symm, ha, rfl⟩

/-! ### Numbers of symbols -/

theorem filter_take_get {l : List α} {p : α → Bool} : ∀ {n : Nat} {a : α}, l[n]? = some a → p a = true →
    (l.filter p)[((l.take n).filter p).length]? = some a := by
  induction l with
  | nil => intro n a h; simp at h
  | cons b l ih =>
    intro n a h hp
    cases n with
    | zero =>
      simp only [List.getElem?_cons_zero, Option.some.injEq] at h
      subst h
      simp [hp]
    | succ n =>
      rw [List.getElem?_cons_succ] at h
      rw [List.take_succ_cons]
      by_cases hb : p b = true
      · rw [List.filter_cons_of_pos hb, List.filter_cons_of_pos hb, List.length_cons, List.getElem?_cons_succ]
        exact ih h hp
      · rw [List.filter_cons_of_neg hb, List.filter_cons_of_neg hb]
        exact ih h hp

theorem isLocal_or_isGlobal {M : Mod} (hW : M.WF) {y : ASym} (hy : y ∈ M.syms) (hk : y.kind.isSymbolic = true) :
    y.isLocal = true ∨ (!y.isLocal && y.isGlobal) = true := by
  have h1 := hW.labels y hy
  have h2 := hW.imports y hy
  unfold ASym.isLocal ASym.isGlobal
  generalize y.kind = k at *
  cases k
  · rw [(h1 rfl).2.1]
    generalize y.used = u; generalize y.fileExport = f; generalize y.exported = x; revert u f x; decide
  · cases hk
  · rw [(h2 rfl).2]; generalize y.used = u; generalize y.fileExport = f; generalize y.exported = x; revert u f x; decide
  · rw [(h2 rfl).2]; generalize y.used = u; generalize y.fileExport = f; generalize y.exported = x; revert u f x; decide
  · cases hk

/-- The symbol that has a number, among all. -/
theorem symId_get {M : Mod} {n : Nat} {y : ASym} (h : M.syms[n]? = some y) (hy : y.isLocal = true ∨ (!y.isLocal && y.isGlobal) = true) :
    0 < M.symId n ∧ (M.locals ++ M.globals)[M.symId n - 1]? = some y ∧
      (y.isLocal = true → M.symId n < 1 + M.locals.length) ∧ (y.isLocal = false → 1 + M.locals.length ≤ M.symId n) := by
  unfold Mod.symId
  rw [h]
  simp only
  rcases hy with hl | hg
  · rw [if_pos hl]
    have := filter_take_get h hl
    have hlt := (List.getElem?_eq_some_iff.1 this).1
    refine ⟨by omega, ?_, fun _ => ?_, fun hx => by rw [hl] at hx; cases hx⟩
    · rw [Nat.add_sub_cancel_left]
      exact (List.getElem?_append_left hlt).trans this
    · show _ < 1 + (M.syms.filter ASym.isLocal).length
      omega
  · have hn : ¬ y.isLocal = true := by
      intro hx; rw [hx] at hg; cases hg
    have hg' : y.isGlobal = true := by
      cases hgg : y.isGlobal
      · rw [hgg, Bool.and_false] at hg; cases hg
      · rfl
    rw [if_neg hn, if_pos hg']
    have := filter_take_get (p := fun y => !y.isLocal && y.isGlobal) h hg
    refine ⟨by omega, ?_, fun hx => absurd hx hn, fun _ => by omega⟩
    rw [List.getElem?_append_right (by omega)]
    have e : 1 + M.locals.length + (List.filter (fun y => !y.isLocal && y.isGlobal) (List.take n M.syms)).length - 1 - M.locals.length =
      (List.filter (fun y => !y.isLocal && y.isGlobal) (List.take n M.syms)).length := by omega
    rw [e]
    exact this

theorem symId_lt {M : Mod} {n : Nat} {y : ASym} (h : M.syms[n]? = some y) (hy : y.isLocal = true ∨ (!y.isLocal && y.isGlobal) = true) :
    M.symId n < 1 + M.locals.length + M.globals.length := by
  obtain ⟨h0, hg, -, -⟩ := symId_get h hy
  have := (List.getElem?_eq_some_iff.1 hg).1
  rw [List.length_append] at this
  omega

theorem length_parts (M : Mod) : M.locals.length + M.globals.length ≤ M.syms.length := by
  unfold Mod.locals Mod.globals
  generalize M.syms = l
  induction l with
  | nil => simp
  | cons y l ih =>
    rw [List.filter_cons, List.filter_cons]
    cases hl : y.isLocal
    · cases hg : y.isGlobal
      · simp only [Bool.not_false, Bool.and_false]; simp only [Bool.false_eq_true, if_false, List.length_cons]; omega
      · simp only [Bool.not_false, Bool.and_true]; simp only [Bool.false_eq_true, if_false, if_true, List.length_cons]; omega
    · simp only [Bool.not_true, Bool.false_and]; simp only [Bool.false_eq_true, if_false, if_true, List.length_cons]; omega

/-! ### Headers -/

theorem At.lt {t s : Bytes} {off : Nat} (h : At t off (putSz s)) : off < t.length := by
  obtain ⟨r, hr⟩ := h
  have : (t.drop off).length ≠ 0 := by rw [← hr, List.length_append, length_putSz]; omega
  rw [List.length_drop] at this
  omega

theorem At.le {t s : Bytes} {off : Nat} (h : At t off s) (ho : off ≤ t.length) : off + s.length ≤ t.length := by
  obtain ⟨r, hr⟩ := h
  have : (t.drop off).length = s.length + r.length := by rw [← hr, List.length_append]
  rw [List.length_drop] at this
  omega

theorem SecHdr.reads {M : Mod} (hW : M.WF) {file strs : Bytes} (hf : file.length < W32) (hs : strs.length ≤ file.length) {s : ASec}
    (hm : s ∈ M.secs) {h : Shdr} (hh : SecHdr M file strs s h) (be : Bool) : Reads (shdr be) (h.put be) h := by
  have hW32 : W32 = 4294967296 := rfl
  apply reads_shdr
  · have := hh.name.1.lt; omega
  · rw [hh.type]; split <;> decide
  · rw [hh.flags]; split
    · split <;> decide
    · decide
  · rw [hh.addr]
    have := hW.load s hm
    cases hl : s.load with
    | none => decide
    | some a => exact this a hl
  · have := hh.offset; omega
  · rw [hh.size]; exact (hW.used s hm).1
  · rw [hh.link]; decide
  · rw [hh.info]; decide
  · rw [hh.align]
    have := hW.aligned s hm
    cases hl : s.align with
    | none => exact hW.align
    | some a => exact this a hl
  · rw [hh.entsize]; decide

theorem RelHdr.reads {be : Bool} {M : Mod} {file strs : Bytes} (hf : file.length < W32) (hs : strs.length ≤ file.length) {i : Nat} {s : ASec}
    {h : Shdr} (hh : RelHdr be M file strs i s h) (hi : secId i < W32) : Reads (shdr be) (h.put be) h := by
  have hW32 : W32 = 4294967296 := rfl
  apply reads_shdr
  · have := hh.name.1.lt; omega
  · rw [hh.type]; decide
  · rw [hh.flags]; decide
  · rw [hh.addr]; decide
  · have := hh.offset; omega
  · obtain ⟨rs, -, ha, he⟩ := hh.relocs
    have := ha.le hh.offset
    rw [length_flatMap (n := 12) (fun b _ => length_rela be b), length_sortRela] at this
    omega
  · rw [hh.link]; decide
  · rw [hh.info]; exact hi
  · rw [hh.align]; decide
  · rw [hh.entsize]; decide

theorem RelHdrs.mem {be : Bool} {M : Mod} {file strs : Bytes} {i : Nat} {ss : List ASec} {hs : List Shdr}
    (h : RelHdrs be M file strs i ss hs) : ∀ hd ∈ hs, ∃ j s, j < i + ss.length ∧ s ∈ ss ∧ RelHdr be M file strs j s hd := by
  induction h with
  | nil => intro hd h; cases h
  | cons h1 _ ih =>
    intro hd hm
    rcases List.mem_cons.1 hm with rfl | hm
    · exact ⟨_, _, by simp, by simp, h1⟩
    · obtain ⟨j, s, hj, hs, hr⟩ := ih hd hm
      exact ⟨j, s, by rw [List.length_cons]; omega, by simp [hs], hr⟩

theorem RelHdrs.length_eq {be : Bool} {M : Mod} {file strs : Bytes} {i : Nat} {ss : List ASec} {hs : List Shdr}
    (h : RelHdrs be M file strs i ss hs) : ss.length = hs.length := by
  induction h with
  | nil => rfl
  | cons _ _ ih => simp [ih]

/-! ### Contents -/

/-- The contents of a section. -/
def ProgOf (s : ASec) (b : Body) : Prop :=
  ∃ d, b = .prog d ∧ (s.text = false → d = []) ∧ (s.text = true → clear s.alloc s.data s.patches = .ok d)

theorem SecHdr.body {M : Mod} (hW : M.WF) {file strs : Bytes} {s : ASec} (hm : s ∈ M.secs) {h : Shdr} (hh : SecHdr M file strs s h)
    (be : Bool) : ∃ b, readBody file be h = .ok b ∧ ProgOf s b := by
  unfold readBody
  cases ht : s.text
  · rw [hh.type, if_neg (by rw [ht]; decide), if_pos (by rw [ht]; rfl)]
    exact ⟨_, rfl, [], rfl, fun _ => rfl, (fun h => by rw [ht] at h; cases h)⟩
  · obtain ⟨d, hd, ha, -⟩ := hh.data ht
    have hl : d.length = h.size := by rw [length_clear hd, hW.data s hm ht, hh.size]
    rw [hh.type, if_pos (by rw [ht]; rfl), if_pos (by rw [hh.flags, ht]; cases s.isData <;> decide), ← hl, rd_at ha (reads_raw d), ok_bind]
    exact ⟨_, rfl, d, rfl, (fun h => by rw [ht] at h; cases h), fun _ => hd⟩

/-- The relocations of section `i` as they are read. -/
def RelaOf (M : Mod) (s : ASec) (b : Body) : Prop := ∃ l, b = .rela l ∧ RelsOf M s l

theorem RelHdr.body {be : Bool} {M : Mod} (hW : M.WF) {file strs : Bytes} {i : Nat} {s : ASec} (hm : s ∈ M.secs) {h : Shdr}
    (hh : RelHdr be M file strs i s h) : ∃ b, readBody file be h = .ok b ∧ RelaOf M s b := by
  obtain ⟨rs, hr, ha, he⟩ := hh.relocs
  unfold readBody
  rw [hh.type, if_neg (by decide), if_neg (by decide), if_neg (by decide), if_neg (by decide), if_pos rfl, hh.entsize, if_neg (by decide), he,
    Nat.mul_div_cancel _ (by decide : 0 < 12), ← length_sortRela rs]
  have hrel := relocs_ok hr
  have hread : ∀ r ∈ sortRela rs, Reads (erela be) (r.put be) r.e := by
    intro r hx
    have hx' : r ∈ rs := (List.mergeSort_perm rs _).mem_iff.1 hx
    obtain ⟨p, hp, n, add, y, h1, h2, h3, rfl⟩ := hrel.right r hx'
    exact reads_erela be _ (Nat.lt_trans (hW.patches s hm p hp) (hW.used s hm).1) (Nat.mod_lt _ (by decide)) (symOffset_lt h1)
  rw [read_table (g := Rela.e) (fun b _ => length_rela be b) hread ha, ok_bind]
  exact ⟨_, rfl, _, rfl, relsOf hr⟩

/-- The section of a symbol, by the number in the table. -/
def secOf (n : Nat) : Option Nat := if n = SHN_ABS then none else if n = 0 then none else some n

/-- A symbol as it is read. -/
def rsym (b : Nat) (y : ASym) (r : Nat × Nat) : RSym := ⟨y.name, secOf r.2, ⟨r.1, y.value, b, 0, r.2⟩⟩

theorem shndx_lt {M : Mod} (hS : M.Small) {y : ASym} {k : Nat} (h : M.shndx y = .ok k) : k < 65536 ∧ (k = SHN_ABS ∨ k < 3 + 2 * M.secs.length) := by
  have hsm := hS.secs
  unfold Mod.shndx at h
  split at h
  · cases h; exact ⟨by decide, .inl rfl⟩
  · split at h
    · cases h; exact ⟨by decide, .inr (by omega)⟩
    · split at h
      · cases h; unfold secId; exact ⟨by omega, .inr (by omega)⟩
      · cases h

theorem reads_syms {be : Bool} {M : Mod} (hS : M.Small) (hW : M.WF) {strs : Bytes} (hs : strs.length < W32) {b : Nat} (hb : b < 2) {ys : List ASym}
    (hys : ∀ y ∈ ys, y ∈ M.syms) {rs : List (Nat × Nat)} (h : All₂ (SymRec be M b strs) ys rs) :
    ∀ q ∈ ys.zip rs, Reads (esym be) (symRecord be q.2.1 q.1.value (b * 16) q.2.2) (rsym b q.1 q.2).sym := by
  intro q hq
  obtain ⟨i, hi⟩ := List.getElem?_of_mem hq
  rw [List.getElem?_zip_eq_some] at hi
  have hr := h.get hi.1 hi.2
  have hy : q.1 ∈ ys := List.mem_of_getElem? hi.1
  have := reads_esym be (name := q.2.1) (value := q.1.value) (info := b * 16) (shndx := q.2.2)
    (Nat.lt_of_lt_of_le hr.name.1.lt (Nat.le_of_lt hs)) (hW.values q.1 (hys _ hy)) (by omega) (shndx_lt hS hr.sec).1
  have e : (⟨q.2.1, q.1.value, b * 16 / 16, b * 16 % 16, q.2.2⟩ : ESym) = (rsym b q.1 q.2).sym := by
    unfold rsym
    rw [Nat.mul_div_cancel _ (by decide : 0 < 16), Nat.mul_mod_left]
  rw [← e]
  exact this

/-- The relocations, section by section. -/
inductive RelBs (M : Mod) : Nat → List ASec → List RBody → Prop where
  | nil : RelBs M i [] []
  | cons : RelsOf M s l → RelBs M (i + 1) ss bs → RelBs M i (s :: ss) (.rela (some (secId i)) 1 l :: bs)

/-- What the reader does when it has read everything. -/
def link (hdrs : List Shdr) (names : List Bytes) (bodies : List Body) (rbodies : List RBody) : Outcome (List XSec) :=
  (sectionsToXlink 0 (hdrs.zip (names.zip bodies)) ⟨[], fun _ => none, fun _ _ => none⟩).bind fun x =>
    (symTabs hdrs 0 (hdrs.zip rbodies) x).bind fun x =>
      (relaTabs hdrs rbodies rbodies x).bind fun x => .ok x.secs

/-- The symbols of the file as they are read. -/
def rsyms (M : Mod) (ls gs : List (Nat × Nat)) : List RSym :=
  ⟨[], none, ⟨0, 0, 0, 0, 0⟩⟩ :: (((M.locals.zip ls).map fun q => rsym 0 q.1 q.2) ++ (M.globals.zip gs).map fun q => rsym 1 q.1 q.2)

/-- Everything that has been read. -/
structure Loaded (be : Bool) (M : Mod) (file strs : Bytes) (hdrs : List Shdr) (names : List Bytes) (bodies : List Body) (rbodies : List RBody)
    (hs : List Shdr) (ls gs : List (Nat × Nat)) : Prop where
  hdrs : ∃ z sy st rs, hdrs = z :: sy :: st :: (hs ++ rs) ∧ z.type = 0 ∧ sy.type = 2 ∧ sy.info = 1 + M.locals.length ∧ st.type = 3 ∧
    rs.length = M.secs.length ∧ ∀ h ∈ rs, h.type = 4
  names : ∃ n0 n1 n2 rn, names = n0 :: n1 :: n2 :: (M.secs.map ASec.name ++ rn) ∧ rn.length = M.secs.length
  bodies : ∃ b0 b1 b2 pb rb, bodies = b0 :: b1 :: b2 :: (pb ++ rb) ∧ All₂ ProgOf M.secs pb ∧ rb.length = M.secs.length
  rbodies : ∃ rr, rbodies = .other :: .syms (rsyms M ls gs) :: .other :: (M.secs.map (fun _ => .other) ++ rr) ∧ RelBs M 0 M.secs rr
  secs : All₂ (SecHdr M file strs) M.secs hs
  locals : All₂ (SymRec be M 0 strs) M.locals ls
  globals : All₂ (SymRec be M 1 strs) M.globals gs

theorem relBodies {be : Bool} {M : Mod} (hW : M.WF) {file strs : Bytes} {i : Nat} {ss : List ASec} {hs : List Shdr}
    (h : RelHdrs be M file strs i ss hs) (hm : ∀ s ∈ ss, s ∈ M.secs) :
    ∃ l, mapO (readBody file be) hs = .ok l ∧ All₂ (RelaOf M) ss l := by
  induction h with
  | nil => exact ⟨[], rfl, .nil⟩
  | cons h1 _ ih =>
    obtain ⟨b, hb, hr⟩ := h1.body hW (hm _ (by simp))
    obtain ⟨l, hl, ha⟩ := ih fun s hs => hm s (by simp [hs])
    exact ⟨b :: l, mapO_cons hb hl, .cons hr ha⟩

theorem relNames {be : Bool} {M : Mod} (hW : M.WF) {file strs : Bytes} {i : Nat} {ss : List ASec} {hs : List Shdr}
    (h : RelHdrs be M file strs i ss hs) (hm : ∀ s ∈ ss, s ∈ M.secs) :
    ∃ l, mapO (fun h : Shdr => getString strs h.name) hs = .ok l ∧ l.length = ss.length := by
  induction h with
  | nil => exact ⟨[], rfl, rfl⟩
  | @cons i s hd ss hs h1 _ ih =>
    obtain ⟨l, hl, ha⟩ := ih fun s hs => hm s (by simp [hs])
    refine ⟨_ :: l, mapO_cons (getString_at h1.name.1 ?_) hl, by simp [ha]⟩
    have := (hW.names s (hm s (by simp))).1
    simp only [List.mem_append, not_or]
    exact ⟨this, by decide⟩

theorem sec_pos {e : Elf} {k : Nat} (h0 : k ≠ SHN_ABS) (h1 : k < e.hdrs.length) (h2 : k ≠ 0) : e.section k = .ok (some k) := by
  unfold Elf.section
  rw [if_neg h0, if_neg (by omega), if_neg h2]

theorem sec_of {e : Elf} {k : Nat} (h : k = SHN_ABS ∨ k < e.hdrs.length) : e.section k = .ok (secOf k) := by
  unfold Elf.section secOf
  by_cases h0 : k = SHN_ABS
  · rw [if_pos h0, if_pos h0]
  · rw [if_neg h0, if_neg h0, if_neg (by rcases h with h | h <;> omega)]

theorem relResolve {be : Bool} {M : Mod} (hW : M.WF) (hS : M.Small) {file strs : Bytes} {e : Elf} {names : List Bytes} {es : List ESym}
    (hsy : e.symbols 1 = .ok es) (hes : es.length = 1 + M.locals.length + M.globals.length) (hle : 3 + M.secs.length < e.hdrs.length + 1)
    (hlt : e.hdrs.length < 0xFF00) {ss : List ASec}
    {hs : List Shdr} {i : Nat} (h : RelHdrs be M file strs i ss hs) :
    ∀ {bs : List Body}, i + ss.length ≤ M.secs.length → All₂ (RelaOf M) ss bs →
    ∃ l, mapO (fun q : Shdr × Body => e.resolveBody names q.1 q.2) (hs.zip bs) = .ok l ∧ RelBs M i ss l := by
  induction h with
  | nil => intro bs _ h; cases h; exact ⟨[], rfl, .nil⟩
  | @cons i s hd ss hs h1 _ ih =>
    intro bs hi hb
    rw [List.length_cons] at hi
    cases hb with
    | cons hb1 hb2 =>
      obtain ⟨l, hl, ha⟩ := ih (by omega) hb2
      obtain ⟨x, rfl, hx⟩ := hb1
      have hxx := hx
      obtain ⟨ps, rs, hp, hall, rfl⟩ := hx
      refine ⟨_, ?_, .cons hxx ha⟩
      rw [List.zip_cons_cons]
      refine mapO_cons ?_ hl
      unfold Elf.resolveBody
      simp only
      have hA : SHN_ABS = 0xFFF1 := rfl
      rw [h1.info, sec_pos (k := secId i) (by unfold secId; omega) (by unfold secId; omega) (by unfold secId; omega), ok_bind, h1.link, hsy,
        ok_bind, if_pos]
      rw [List.all_eq_true]
      intro r hr
      obtain ⟨r', hr', rfl⟩ := List.mem_map.1 hr
      obtain ⟨p, hp', n, add, y, h1, h2, h3, rfl⟩ := hall.right r' hr'
      have hlt := symId_lt h2 (isLocal_or_isGlobal hW (List.mem_of_getElem? h2) h3)
      have := length_parts M
      have := hS.syms
      have hW32 : W32 = 4294967296 := rfl
      have : (M.symId n * 256 + 1) % W32 / 256 = M.symId n := by rw [Nat.mod_eq_of_lt (by omega)]; omega
      apply decide_eq_true
      show (M.symId n * 256 + 1) % W32 / 256 < es.length
      omega

theorem resolveSyms {be : Bool} {M : Mod} (hW : M.WF) (hS : M.Small) {strs : Bytes} {e : Elf} {names : List Bytes}
    (hle : e.hdrs.length = 3 + 2 * M.secs.length) {b : Nat} : ∀ {ys : List ASym} {rs : List (Nat × Nat)}, (∀ y ∈ ys, y ∈ M.syms) →
    All₂ (SymRec be M b strs) ys rs → mapO (e.resolveSym names strs) ((ys.zip rs).map fun q => (rsym b q.1 q.2).sym) =
      .ok ((ys.zip rs).map fun q => rsym b q.1 q.2) := by
  intro ys rs hm h
  induction h with
  | nil => rfl
  | @cons y r ys rs h1 _ ih =>
    rw [List.zip_cons_cons, List.map_cons, List.map_cons]
    refine mapO_cons ?_ (ih fun y hy => hm y (by simp [hy]))
    unfold Elf.resolveSym rsym
    simp only
    rw [sec_of (hle ▸ (shndx_lt hS h1.sec).2), ok_bind, if_neg (by simp), getString_at h1.name.1 (hW.symNames y (hm y (by simp))).1, ok_bind]

theorem All₂.eq_map {f : α → β} {l : List α} {m : List β} (h : All₂ (fun a b => b = f a) l m) : m = l.map f := by
  induction h with
  | nil => rfl
  | cons h1 _ ih => rw [h1, ih]; rfl

theorem mapO_others {f : Shdr × Body → Outcome RBody} : ∀ {ss : List ASec} {hs : List Shdr} {pb : List Body}, ss.length = hs.length →
    All₂ ProgOf ss pb → (∀ h d, f (h, .prog d) = .ok .other) → mapO f (hs.zip pb) = .ok (ss.map fun _ => .other) := by
  intro ss hs pb hl h hf
  induction h generalizing hs with
  | nil => cases hs with
    | nil => rfl
    | cons _ _ => cases hl
  | @cons s b ss bs h1 _ ih =>
    cases hs with
    | nil => cases hl
    | cons h hs =>
      obtain ⟨d, rfl, -⟩ := h1
      exact mapO_cons (hf h d) (ih (by simpa using hl))

theorem read_link {be : Bool} {M : Mod} (hW : M.WF) (hS : M.Small) {file strs : Bytes} {hdrs : List Shdr} (hf : file.length < W32)
    (w : Written be M file strs hdrs) : ∃ names bodies rbodies hs ls gs, read file = link hdrs names bodies rbodies ∧
      Loaded be M file strs hdrs names bodies rbodies hs ls gs := by
  obtain ⟨⟨shoff, rest, hfile, hsh, hat⟩, hstrs, hzero, sy, st, hs, rs, ls, gs, ehd, aS, aR, aL, aG, ⟨so, esy, hso, asy⟩, ⟨to, est, hto, ast⟩,
    hn1, hn2⟩ := w
  have hW32 : W32 = 4294967296 := rfl
  have hsm := hS.secs
  have hsm2 := hS.syms
  have hlp := length_parts M
  have hl1 : hs.length = M.secs.length := aS.length_eq.symm
  have hl2 : rs.length = M.secs.length := aR.length_eq.symm
  have hlen : hdrs.length = 3 + 2 * M.secs.length := by
    rw [ehd]; simp only [List.length_cons, List.length_append]; omega
  have hname0 : (0 : UInt8) ∉ ([0x2E, 0x73, 0x79, 0x6D, 0x74, 0x61, 0x62] : Bytes) := by decide
  have hname1 : (0 : UInt8) ∉ ([0x2E, 0x73, 0x74, 0x72, 0x74, 0x61, 0x62] : Bytes) := by decide
  -- the header
  have e1 : readHeader file = .ok (be, shoff, 40, hdrs.length, 2) := by
    rw [hfile]
    exact readHeader_ok be rest (by omega) (by omega)
  -- the section headers
  have hreads : ∀ h ∈ hdrs, Reads (shdr be) (h.put be) h := by
    intro h hm
    rw [ehd] at hm
    simp only [List.mem_cons, List.mem_append] at hm
    rcases hm with rfl | rfl | rfl | hm | hm
    · exact reads_shdr be _ (by decide) (by decide) (by decide) (by decide) (by decide) (by decide) (by decide) (by decide) (by decide) (by decide)
    · rw [esy]
      have hz := asy.le hso
      rw [List.length_append, List.length_append, length_symRecord, length_flatMap (n := 16) (fun _ _ => length_symRecord be _ _ _ _),
        length_flatMap (n := 16) (fun _ _ => length_symRecord be _ _ _ _), zip_length aL, zip_length aG] at hz
      exact reads_shdr be _ (by simp) (by simp) (by simp) (by simp) (by show so < _; omega)
        (by show (1 + M.locals.length + M.globals.length) * 16 < _; omega) (by simp) (by show 1 + M.locals.length < _; omega) (by simp) (by simp)
    · rw [est]
      exact reads_shdr be _ (by simp) (by simp) (by simp) (by simp) (by show to < _; omega)
        (by show strs.length < _; omega) (by simp) (by simp) (by simp) (by simp)
    · obtain ⟨s, hms, hh⟩ := aS.right h hm
      exact hh.reads hW hf hstrs hms be
    · obtain ⟨j, s, hj, hms, hh⟩ := aR.mem h hm
      exact hh.reads hf hstrs (by unfold secId; omega)
  have e2 : readSectionHeaders file be shoff 40 hdrs.length = .ok hdrs := by
    unfold readSectionHeaders
    rw [read_table (g := id) (fun b _ => length_shdr be b) hreads hat, List.map_id]
  -- the contents
  obtain ⟨pb, hpb, aP⟩ := mapO_all₂ (f := readBody file be) aS (fun s hm h hh => hh.body hW hm be)
  obtain ⟨rb, hrb, aB⟩ := relBodies hW aR (fun s hm => hm)
  have hlocals : ∀ y ∈ M.locals, y ∈ M.syms := fun y hy => (List.mem_filter.1 hy).1
  have hglobals : ∀ y ∈ M.globals, y ∈ M.syms := fun y hy => (List.mem_filter.1 hy).1
  have hes : mapO (fun i => rd file (so + i * 16) (esym be)) (List.range (1 + M.locals.length + M.globals.length)) =
      .ok ((rsyms M ls gs).map RSym.sym) := by
    let put : Nat × Nat × Nat × Nat → Bytes := fun q => symRecord be q.1 q.2.1 q.2.2.1 q.2.2.2
    let l : List (Nat × Nat × Nat × Nat) := (0, 0, 0, 0) :: (((M.locals.zip ls).map fun q => (q.2.1, q.1.value, 0, q.2.2)) ++
      (M.globals.zip gs).map fun q => (q.2.1, q.1.value, 16, q.2.2))
    have hl : l.length = 1 + M.locals.length + M.globals.length := by
      simp only [l, List.length_cons, List.length_append, List.length_map, zip_length aL, zip_length aG]; omega
    have hfl : l.flatMap put = symRecord be 0 0 0 0 ++ (((M.locals.zip ls).flatMap fun (y, r) => symRecord be r.1 y.value 0 r.2) ++
        (M.globals.zip gs).flatMap fun (y, r) => symRecord be r.1 y.value 16 r.2) := by
      simp only [l, List.flatMap_cons, List.flatMap_append, List.flatMap_map]; rfl
    have := read_table (f := file) (p := esym be) (put := put) (g := fun q => (⟨q.1, q.2.1, q.2.2.1 / 16, q.2.2.1 % 16, q.2.2.2⟩ : ESym))
      (n := 16) (l := l) (off := so) (fun _ _ => length_symRecord be _ _ _ _) (by
        intro q hq
        simp only [l, List.mem_cons, List.mem_append, List.mem_map] at hq
        rcases hq with rfl | ⟨q, hq, rfl⟩ | ⟨q, hq, rfl⟩
        · exact reads_esym be (by decide) (by decide) (by decide) (by decide)
        · have := reads_syms hS hW (by omega) (by decide : 0 < 2) hlocals aL q hq
          simpa only [rsym, Nat.zero_mul, Nat.zero_div, Nat.zero_mod, put] using this
        · have := reads_syms hS hW (by omega) (by decide : 1 < 2) hglobals aG q hq
          simpa only [rsym, Nat.one_mul, Nat.reduceDiv, Nat.reduceMod, put] using this) (hfl ▸ asy)
    rw [hl] at this
    rw [this]
    congr 1
    simp only [l, rsyms, List.map_cons, List.map_append, List.map_map, Function.comp_def, rsym, Nat.zero_div, Nat.zero_mod, Nat.reduceDiv,
      Nat.reduceMod]
  have e3 : mapO (readBody file be) hdrs = .ok (.other :: .syms ((rsyms M ls gs).map RSym.sym) :: .strs strs :: (pb ++ rb)) := by
    rw [ehd]
    refine mapO_cons rfl (mapO_cons ?_ (mapO_cons ?_ (mapO_append hpb hrb)))
    · rw [esy]
      unfold readBody
      rw [if_neg (by simp), if_neg (by simp), if_neg (by simp), if_pos rfl, if_neg (by simp)]
      simp only
      rw [Nat.mul_div_cancel _ (by decide : 0 < 16), hes, ok_bind]
    · rw [est]
      unfold readBody
      rw [if_neg (by simp), if_neg (by simp), if_pos rfl]
      simp only
      rw [rd_at ast (reads_raw strs), ok_bind]
  -- the names
  have e4 : ∃ rn, mapO (fun h : Shdr => getString strs h.name) hdrs = .ok ([] :: [0x2E, 0x73, 0x79, 0x6D, 0x74, 0x61, 0x62] ::
      [0x2E, 0x73, 0x74, 0x72, 0x74, 0x61, 0x62] :: (M.secs.map ASec.name ++ rn)) ∧ rn.length = M.secs.length := by
    obtain ⟨rn, hrn, hrl⟩ := relNames hW aR (fun s hm => hm)
    refine ⟨rn, ?_, hrl⟩
    rw [ehd]
    refine mapO_cons (getString_at hzero.1 (by simp)) (mapO_cons ?_ (mapO_cons ?_ (mapO_append ?_ hrn)))
    · rw [esy]; exact getString_at hn1.1 hname0
    · rw [est]; exact getString_at hn2.1 hname1
    · obtain ⟨l, hl, ha⟩ := mapO_all₂ (f := fun h : Shdr => getString strs h.name) (S := fun s n => n = s.name) aS
        (fun s hm h hh => ⟨s.name, getString_at hh.name.1 (hW.names s hm).1, rfl⟩)
      rw [hl, ha.eq_map]
  obtain ⟨rn, e4, hrn⟩ := e4
  have hpl : pb.length = M.secs.length := aP.length_eq.symm
  have hrl : rb.length = M.secs.length := aB.length_eq.symm
  have e5 : Elf.strings ⟨2, hdrs, .other :: .syms ((rsyms M ls gs).map RSym.sym) :: .strs strs :: (pb ++ rb)⟩ 2 = .ok strs := by
    unfold Elf.strings
    rw [sec_pos (by decide) (by show 2 < hdrs.length; omega) (by decide), ok_bind]
    rfl
  have e6 : Elf.symbols ⟨2, hdrs, .other :: .syms ((rsyms M ls gs).map RSym.sym) :: .strs strs :: (pb ++ rb)⟩ 1 =
      .ok ((rsyms M ls gs).map RSym.sym) := by
    unfold Elf.symbols
    rw [sec_pos (by decide) (by show 1 < hdrs.length; omega) (by decide), ok_bind]
    rfl
  have hrs : ((rsyms M ls gs).map RSym.sym).length = 1 + M.locals.length + M.globals.length := by
    simp only [rsyms, List.length_map, List.length_cons, List.length_append, zip_length aL, zip_length aG]; omega
  generalize hE : (⟨2, hdrs, .other :: .syms ((rsyms M ls gs).map RSym.sym) :: .strs strs :: (pb ++ rb)⟩ : Elf) = E at e5 e6
  have hEh : E.hdrs = hdrs := by rw [← hE]
  generalize hN : ([] :: [0x2E, 0x73, 0x79, 0x6D, 0x74, 0x61, 0x62] :: [0x2E, 0x73, 0x74, 0x72, 0x74, 0x61, 0x62] ::
    (M.secs.map ASec.name ++ rn) : List Bytes) = names at e4
  obtain ⟨rr, hrr, aRR⟩ := relResolve (names := names) hW hS e6 hrs (by rw [hEh]; omega) (by rw [hEh]; omega) aR (by omega) aB
  have e7 : mapO (fun q : Shdr × Body => E.resolveBody names q.1 q.2)
      (hdrs.zip (.other :: .syms ((rsyms M ls gs).map RSym.sym) :: .strs strs :: (pb ++ rb))) =
      .ok (.other :: .syms (rsyms M ls gs) :: .other :: (M.secs.map (fun _ => .other) ++ rr)) := by
    rw [ehd, List.zip_cons_cons, List.zip_cons_cons, List.zip_cons_cons, List.zip_append (by omega)]
    refine mapO_cons rfl (mapO_cons ?_ (mapO_cons rfl (mapO_append ?_ hrr)))
    · unfold Elf.resolveBody
      simp only
      rw [esy]
      simp only
      rw [e5, ok_bind]
      have : mapO (E.resolveSym names strs) ((rsyms M ls gs).map RSym.sym) = .ok (rsyms M ls gs) := by
        unfold rsyms
        rw [List.map_cons, List.map_append, List.map_map, List.map_map]
        refine mapO_cons ?_ (mapO_append (resolveSyms hW hS (by rw [hEh, hlen]) hlocals aL) (resolveSyms hW hS (by rw [hEh, hlen]) hglobals aG))
        unfold Elf.resolveSym
        simp only
        rw [sec_of (.inr (by rw [hEh]; omega)), ok_bind, if_neg (by decide), getString_at hzero.1 (by simp), ok_bind]
        rfl
      rw [this, ok_bind]
    · exact mapO_others (by omega) aP (fun h d => rfl)
  refine ⟨names, .other :: .syms ((rsyms M ls gs).map RSym.sym) :: .strs strs :: (pb ++ rb),
    .other :: .syms (rsyms M ls gs) :: .other :: (M.secs.map (fun _ => .other) ++ rr), hs, ls, gs, ?_, ⟨⟨_, _, _, rs, ehd, rfl, by rw [esy], by rw [esy], by rw [est], hl2, ?_⟩, ⟨_, _, _, rn, hN.symm, hrn⟩,
    ⟨_, _, _, pb, rb, rfl, aP, hrl⟩, ⟨rr, rfl, aRR⟩, aS, aL, aG⟩⟩
  · unfold read
    rw [e1, ok_bind]
    simp only
    rw [e2, ok_bind, e3, ok_bind, hE, e5, ok_bind, e4, ok_bind, e7, ok_bind]
    rfl
  · intro h hm
    obtain ⟨j, s, hj, hms, hh⟩ := aR.mem h hm
    exact hh.type

end Verif.Elf
