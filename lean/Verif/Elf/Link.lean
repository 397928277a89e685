import Verif.Elf.Read
/-!
# What the linker makes of the file
-/
namespace Verif.Elf
open Verif.Expr (Src)

/-! ### Sections -/

/-- A section of the linker, apart from its symbols and patches. -/
structure SecOk (M : Mod) (s : ASec) (x : XSec) : Prop where
  name : x.name = s.name
  group : x.group = if s.text then (if s.isData then .data else .code) else .bss
  loc : x.loc = s.load
  align : x.align = (let a := s.align.getD M.sectionAlignment; if a ≥ 2 then some a else none)
  size : x.size = s.used
  length : s.text = true → x.data.length = s.used
  data : ∀ j, ¬ Covered s j → s.text = true → x.data[j]? = s.data[j]?

def New (M : Mod) (s : ASec) (x : XSec) : Prop := SecOk M s x ∧ x.symbols = [] ∧ x.patches = []

theorem sectionToXlink_ok {M : Mod} (hW : M.WF) {file strs : Bytes} {s : ASec} (hm : s ∈ M.secs) {h : Shdr} (hh : SecHdr M file strs s h)
    {b : Body} (hb : ProgOf s b) : ∃ x, sectionToXlink h s.name b = .ok (some x) ∧ New M s x := by
  obtain ⟨d, rfl, hd0, hd1⟩ := hb
  have hname : s.name.take 255 = s.name := List.take_of_length_le (by have := (hW.names s hm).2; omega)
  have hloc : (if h.addr = 0 then none else some h.addr) = s.load := by
    rw [hh.addr]
    have := hh.load
    cases hl : s.load with
    | none => rfl
    | some a =>
      have ha : a ≠ 0 := by rintro rfl; exact this hl
      show (if a = 0 then none else some a) = some a
      rw [if_neg ha]
  unfold sectionToXlink
  simp only
  cases ht : s.text
  · rw [hh.type, if_neg (by rw [ht]; decide), if_pos (by rw [ht]; rfl), hh.flags, if_pos (by rw [ht]; simp)]
    refine ⟨_, rfl, ⟨hname, by rw [ht]; rfl, hloc, ?_, hh.size, fun h => ?_, fun j _ h => ?_⟩, rfl, rfl⟩
    · rw [hh.align]
    · rw [ht] at h; cases h
    · rw [ht] at h; cases h
  · have hc := hd1 ht
    rw [hh.type, if_pos (by rw [ht]; rfl), hh.flags]
    have hd : ∀ j, ¬ Covered s j → d[j]? = s.data[j]? := by
      intro j hj
      exact get_clear hc fun p hp hx => hj ⟨p, hp, hx⟩
    cases hdt : s.isData
    · rw [if_pos (by rw [ht]; rfl)]
      refine ⟨_, rfl, ⟨hname, by rw [ht, hdt]; rfl, hloc, ?_, hh.size, fun h => ?_, fun j hj _ => hd j hj⟩, rfl, rfl⟩
      · rw [hh.align]
      · show d.length = _
        rw [length_clear hc, hW.data s hm ht]
    · rw [if_neg (by rw [ht]; decide), if_pos (by rw [ht]; rfl)]
      refine ⟨_, rfl, ⟨hname, by rw [ht, hdt]; rfl, hloc, ?_, hh.size, fun h => ?_, fun j hj _ => hd j hj⟩, rfl, rfl⟩
      · rw [hh.align]
      · show d.length = _
        rw [length_clear hc, hW.data s hm ht]

theorem sectionToXlink_none {h : Shdr} {n : Bytes} {b : Body} (h1 : h.type ≠ 1) (h8 : h.type ≠ 8) : sectionToXlink h n b = .ok none := by
  unfold sectionToXlink
  simp only
  rw [if_neg h1, if_neg h8]

theorem sections_skip : ∀ {l : List (Shdr × Bytes × Body)} {i : Nat} {x : X}, (∀ q ∈ l, q.1.type ≠ 1 ∧ q.1.type ≠ 8) →
    sectionsToXlink i l x = .ok x := by
  intro l
  induction l with
  | nil => intros; rfl
  | cons q l ih =>
    intro i x h
    obtain ⟨hd, n, b⟩ := q
    rw [sectionsToXlink, sectionToXlink_none (h (hd, n, b) (by simp)).1 (h (hd, n, b) (by simp)).2, ok_bind]
    exact ih fun q hq => h q (by simp [hq])

theorem sections_append {l l' : List (Shdr × Bytes × Body)} : ∀ {i : Nat} {x x' : X}, sectionsToXlink i l x = .ok x' →
    sectionsToXlink i (l ++ l') x = sectionsToXlink (i + l.length) l' x' := by
  induction l with
  | nil => intro i x x' h; cases h; rfl
  | cons q l ih =>
    intro i x x' h
    obtain ⟨hd, n, b⟩ := q
    rw [sectionsToXlink] at h
    obtain ⟨o, ho, h⟩ := bind_ok h
    rw [List.cons_append, sectionsToXlink, ho, ok_bind, List.length_cons]
    have e : i + (l.length + 1) = i + 1 + l.length := by omega
    rw [e]
    cases o with
    | none => exact ih h
    | some s => exact ih h

theorem sections_ok {M : Mod} (hW : M.WF) {file strs : Bytes} : ∀ {ss : List ASec} {hs : List Shdr} {pb : List Body},
    (∀ s ∈ ss, s ∈ M.secs) → All₂ (SecHdr M file strs) ss hs → All₂ ProgOf ss pb → ∀ (i : Nat) (x : X),
    ∃ xs, All₂ (New M) ss xs ∧ sectionsToXlink i (hs.zip ((ss.map ASec.name).zip pb)) x =
      .ok { x with secs := x.secs ++ xs, of := fun j => if i ≤ j ∧ j < i + ss.length then some (x.secs.length + (j - i)) else x.of j } := by
  intro ss hs pb hm h1
  induction h1 generalizing pb with
  | nil =>
    intro h2 i x
    cases h2
    refine ⟨[], .nil, ?_⟩
    show Outcome.ok x = _
    congr 1
    cases x
    simp only [List.append_nil, X.mk.injEq, and_true, true_and]
    funext j
    rw [if_neg (by simp only [List.length_nil]; omega)]
  | @cons s hd ss hs a1 _ ih =>
    intro h2 i x
    cases h2 with
    | cons b1 b2 =>
      obtain ⟨y, hy, hN⟩ := sectionToXlink_ok hW (hm s (by simp)) a1 b1
      rw [List.map_cons, List.zip_cons_cons, List.zip_cons_cons, sectionsToXlink, hy, ok_bind]
      obtain ⟨xs, hxs, he⟩ := ih (fun s hs => hm s (by simp [hs])) b2 (i + 1)
        { x with secs := x.secs ++ [y], of := fun j => if j = i then some x.secs.length else x.of j }
      refine ⟨y :: xs, .cons hN hxs, ?_⟩
      simp only
      rw [he]
      congr 1
      simp only [X.mk.injEq, and_true]
      refine ⟨by simp, ?_⟩
      funext j
      rw [List.length_append, List.length_cons, List.length_nil, List.length_cons]
      by_cases hj : j = i
      · subst hj
        rw [if_neg (by omega), if_pos rfl, if_pos (by omega)]
        congr 1
        omega
      · by_cases hj2 : i + 1 ≤ j ∧ j < i + 1 + ss.length
        · rw [if_pos hj2, if_pos (by omega)]
          congr 1
          omega
        · rw [if_neg hj2, if_neg hj, if_neg (by omega)]

/-! ### Symbols -/

/-- A label as the linker knows it. -/
def ASym.toX (y : ASym) : XSym := ⟨y.name, if y.exported then 0 else 3, y.value, false⟩

def ASym.inSec (k : Nat) (y : ASym) : Bool := y.kind == .label && y.sec == k

/-- The labels of section `k` among the symbols that have been added. -/
def added (done : List ASym) (k : Nat) : List XSym := (done.filter (ASym.inSec k)).map ASym.toX

/-- Section and number of a symbol. -/
def posOf (l : List ASym) : Nat → Option (Nat × Nat)
  | 0 => none
  | i + 1 =>
    match l[i]? with
    | some y => if y.kind = .label then some (y.sec, ((l.take i).filter (ASym.inSec y.sec)).length) else none
    | none => none

theorem posOf_snoc (l : List ASym) (y : ASym) (i : Nat) : posOf (l ++ [y]) i =
    if i = 1 + l.length then (if y.kind = .label then some (y.sec, (l.filter (ASym.inSec y.sec)).length) else none) else posOf l i := by
  cases i with
  | zero => rw [if_neg (by omega)]; rfl
  | succ i =>
    by_cases h : i = l.length
    · subst h
      rw [if_pos (by omega), posOf, List.getElem?_append_right (Nat.le_refl _), Nat.sub_self]
      simp only [List.getElem?_cons_zero]
      rw [List.take_left]
    · rw [if_neg (by omega), posOf, posOf]
      by_cases hl : i < l.length
      · rw [List.getElem?_append_left hl, List.take_append_of_le_length (by omega)]
      · rw [List.getElem?_eq_none (by rw [List.length_append, List.length_cons, List.length_nil]; omega),
          List.getElem?_eq_none (by omega)]

/-- What holds while the symbols are added. -/
structure Inv2 (base : List XSec) (of : Nat → Option Nat) (done : List ASym) (x : X) : Prop where
  of : x.of = of
  secs : ∀ k : Nat, x.secs[k]? = (base[k]?).map fun s : XSec => { s with symbols := added done k }
  handle : ∀ i, x.handle 1 i = posOf done i

theorem inv2_skip {base : List XSec} {of : Nat → Option Nat} {done : List ASym} {x : X} (h : Inv2 base of done x) {y : ASym}
    (hy : y.kind ≠ .label) : Inv2 base of (done ++ [y]) x := by
  refine ⟨h.of, fun k => ?_, fun i => ?_⟩
  · rw [h.secs k]
    have : added (done ++ [y]) k = added done k := by
      unfold added
      rw [List.filter_append, List.filter_cons_of_neg (by unfold ASym.inSec; simp [hy]), List.filter_nil, List.append_nil]
    rw [this]
  · rw [h.handle i, posOf_snoc]
    split
    · rename_i hi
      subst hi
      rw [Nat.add_comm, posOf, List.getElem?_eq_none (Nat.le_refl _)]
    · rfl

theorem inv2_add {base : List XSec} {of : Nat → Option Nat} {done : List ASym} {x : X} (h : Inv2 base of done x) {y : ASym}
    (hy : y.kind = .label) (hs : y.sec < base.length) (hn : y.name.length < 255) {r : RSym} (hr : r.name = y.name) (hv : r.sym.value = y.value) :
    ∃ m x', x.add y.sec r (if y.exported then 0 else 3) false = .ok (m, x') ∧
      Inv2 base of (done ++ [y]) (x'.setHandle 1 (1 + done.length) (y.sec, m)) := by
  have hb : base[y.sec]? = some base[y.sec] := List.getElem?_eq_getElem hs
  have hx := h.secs y.sec
  rw [hb, Option.map_some] at hx
  have hsec : ∀ k, ASym.inSec k y = decide (y.sec = k) := by
    intro k
    unfold ASym.inSec
    rw [hy]
    by_cases hk : y.sec = k <;> simp [hk]
  unfold X.add
  rw [hx]
  simp only
  rw [hr, if_pos hn]
  refine ⟨_, _, rfl, h.of, fun k => ?_, fun i => ?_⟩
  · show (x.secs.set y.sec _)[k]? = _
    by_cases hk : y.sec = k
    · subst hk
      have hl : y.sec < x.secs.length := (List.getElem?_eq_some_iff.1 hx).1
      rw [List.getElem?_set_self hl, hb, Option.map_some]
      simp only [Option.some.injEq, XSec.mk.injEq, true_and, and_true]
      unfold added
      rw [List.filter_append, List.filter_cons_of_pos (by rw [hsec]; simp), List.filter_nil, List.map_append, List.map_cons, List.map_nil, hv]
      rfl
    · rw [List.getElem?_set_ne hk, h.secs k]
      have : added (done ++ [y]) k = added done k := by
        unfold added
        rw [List.filter_append, List.filter_cons_of_neg (by rw [hsec]; simp [hk]), List.filter_nil, List.append_nil]
      rw [this]
  · show (if 1 = 1 ∧ i = 1 + done.length then _ else x.handle 1 i) = _
    rw [posOf_snoc, h.handle i]
    by_cases hi : i = 1 + done.length
    · rw [if_pos ⟨rfl, hi⟩, if_pos hi, if_pos hy]
      simp only [added, List.length_map]
    · rw [if_neg (by simp [hi]), if_neg hi]

/-- The headers of the file, as far as they matter. -/
structure HdrsOk (M : Mod) (hdrs : List Shdr) : Prop where
  prog : ∀ k < M.secs.length, ∃ h, hdrs[secId k]? = some h ∧ (h.type = 1 ∨ h.type = 8) ∧ h.flags &&& SHF_ALLOC ≠ 0

theorem HdrsOk.isProg {M : Mod} {hdrs : List Shdr} (h : HdrsOk M hdrs) {k : Nat} (hk : k < M.secs.length) : isProg hdrs (secId k) = true := by
  obtain ⟨hd, e, ht, -⟩ := h.prog k hk
  unfold Elf.isProg
  rw [e]
  rcases ht with ht | ht <;> simp [ht]

theorem shndx_label {M : Mod} {y : ASym} (hk : y.kind = .label) (hc : y.constant = false) (hs : y.sec < M.secs.length) {n : Nat}
    (h : M.shndx y = .ok n) : n = secId y.sec := by
  unfold Mod.shndx at h
  rw [if_neg (by rw [hc]; decide), if_neg (by rw [hk]; decide), if_pos hs] at h
  cases h
  rfl

theorem shndx_import {M : Mod} {y : ASym} (hk : y.kind.isImport = true) (hc : y.constant = false) {n : Nat}
    (h : M.shndx y = .ok n) : n = 0 := by
  unfold Mod.shndx at h
  rw [if_neg (by rw [hc]; decide), if_pos] at h
  · cases h; rfl
  · generalize y.kind = k at *
    cases k <;> first | (cases hk; done) | decide

theorem shndx_const {M : Mod} {y : ASym} (hc : y.constant = true) {n : Nat} (h : M.shndx y = .ok n) : n = SHN_ABS := by
  unfold Mod.shndx at h
  rw [if_pos hc] at h
  cases h
  rfl

theorem secOf_secId {M : Mod} (hS : M.Small) {k : Nat} (hk : k < M.secs.length) : secOf (secId k) = some (secId k) ∧ secId k ≠ SHN_ABS := by
  have := hS.secs
  have h1 : secId k ≠ SHN_ABS := by unfold secId SHN_ABS; omega
  refine ⟨?_, h1⟩
  unfold secOf
  rw [if_neg h1, if_neg (by unfold secId; omega)]

theorem addLocal_ok {be : Bool} {M : Mod} (hW : M.WF) (hS : M.Small) {hdrs : List Shdr} (hH : HdrsOk M hdrs) {base : List XSec}
    (hl : base.length = M.secs.length) {of : Nat → Option Nat} (hof : ∀ k < M.secs.length, of (secId k) = some k) {strs : Bytes} {y : ASym}
    (hy : y ∈ M.syms) (hloc : y.isLocal = true) {r : Nat × Nat} (hr : SymRec be M 0 strs y r) {done : List ASym} {x : X}
    (h : Inv2 base of done x) : ∃ x', addLocal hdrs 1 (1 + done.length) (rsym 0 y r) x = .ok x' ∧ Inv2 base of (done ++ [y]) x' := by
  by_cases hk : y.kind = .label
  · obtain ⟨hc, hrel, hs⟩ := hW.labels y hy hk
    have hn := shndx_label hk hc hs hr.sec
    have hx : y.exported = false := by
      unfold ASym.isLocal at hloc
      cases hxx : y.exported
      · rfl
      · rw [hxx] at hloc; simp at hloc
    obtain ⟨m, x', ha, hi⟩ := inv2_add h hk (hl ▸ hs) (hW.symNames y hy).2 (r := rsym 0 y r) rfl rfl
    rw [hx] at ha
    unfold addLocal rsym
    rw [hn, (secOf_secId hS hs).1]
    simp only
    rw [if_pos (hH.isProg hs), h.of, hof _ hs]
    simp only
    rw [if_neg (by have := hr.pos; omega)]
    refine ⟨x'.setHandle 1 (1 + done.length) (y.sec, m), ?_, hi⟩
    have e : (rsym 0 y r) = ⟨y.name, some (secId y.sec), ⟨r.1, y.value, 0, 0, secId y.sec⟩⟩ := by
      unfold rsym
      rw [hn, (secOf_secId hS hs).1]
    rw [e] at ha
    have ha' : x.add y.sec ⟨y.name, some (secId y.sec), ⟨r.1, y.value, 0, 0, secId y.sec⟩⟩ 3 ((0 : Nat) == 3) = .ok (m, x') := ha
    rw [ha', ok_bind]
  · have hk' : y.kind = .equ := by
      unfold ASym.isLocal at hloc
      generalize y.kind = k at *
      cases k <;> first | rfl | exact absurd rfl hk | (simp at hloc)
    have hn := shndx_const (hW.equs y hy hk') hr.sec
    refine ⟨x, ?_, inv2_skip h hk⟩
    unfold addLocal rsym
    rw [hn]
    rfl

theorem addGlobal_ok {be : Bool} {M : Mod} (hW : M.WF) (hS : M.Small) (hE : ∀ y ∈ M.syms, y.kind = .equ → y.exported = false)
    {hdrs : List Shdr} (hH : HdrsOk M hdrs) {base : List XSec}
    (hl : base.length = M.secs.length) {of : Nat → Option Nat} (hof : ∀ k < M.secs.length, of (secId k) = some k) {strs : Bytes} {y : ASym}
    (hy : y ∈ M.syms) (hloc : (!y.isLocal && y.isGlobal) = true) {r : Nat × Nat} (hr : SymRec be M 1 strs y r) {done : List ASym} {x : X}
    (h : Inv2 base of done x) : ∃ x', addGlobal hdrs 1 (1 + done.length) (rsym 1 y r) x = .ok x' ∧ Inv2 base of (done ++ [y]) x' := by
  have hp := hr.pos
  by_cases hk : y.kind = .label
  · obtain ⟨hc, hrel, hs⟩ := hW.labels y hy hk
    have hn := shndx_label hk hc hs hr.sec
    have hx : y.exported = true := by
      unfold ASym.isLocal at hloc
      cases hxx : y.exported
      · rw [hxx, hrel, hk] at hloc; simp at hloc
      · rfl
    obtain ⟨m, x', ha, hi⟩ := inv2_add h hk (hl ▸ hs) (hW.symNames y hy).2 (r := rsym 1 y r) rfl rfl
    rw [hx] at ha
    have e : (rsym 1 y r) = ⟨y.name, some (secId y.sec), ⟨r.1, y.value, 1, 0, secId y.sec⟩⟩ := by
      unfold rsym
      rw [hn, (secOf_secId hS hs).1]
    rw [e] at ha
    rw [e]
    unfold addGlobal
    simp only
    rw [if_neg (by omega), if_neg (by unfold secId; omega), if_pos (hH.isProg hs), h.of, hof _ hs]
    simp only
    refine ⟨x'.setHandle 1 (1 + done.length) (y.sec, m), ?_, hi⟩
    have hb : (secId y.sec == SHN_ABS) = false := beq_eq_false_iff_ne.2 (secOf_secId hS hs).2
    rw [hb]
    have ha' : x.add y.sec ⟨y.name, some (secId y.sec), ⟨r.1, y.value, 1, 0, secId y.sec⟩⟩ 0 false = .ok (m, x') := ha
    rw [ha', ok_bind]
  · have hk' : y.kind.isImport = true := by
      have h1 := hW.equs y hy
      have h2 := hE y hy
      unfold ASym.isLocal ASym.isGlobal at hloc
      generalize y.kind = k at *
      generalize y.reloc = a at *
      generalize y.used = b at *
      generalize y.fileExport = c at *
      generalize y.exported = d at *
      cases k
      · exact absurd rfl hk
      · rw [h2 rfl] at hloc
        revert hloc
        clear h1 h2
        revert a b c
        decide
      · rfl
      · rfl
      · simp at hloc
    have hn := shndx_import hk' (hW.imports y hy hk').1 hr.sec
    refine ⟨x, ?_, inv2_skip h hk⟩
    unfold addGlobal rsym
    rw [hn]
    simp only
    rw [if_neg (by omega), if_pos trivial]

theorem symLoop_ok {f : Nat → RSym → X → Outcome X} {b : Nat} {base : List XSec} {of : Nat → Option Nat} {R : ASym → Nat × Nat → Prop}
    {ys : List ASym} {rs : List (Nat × Nat)} (h : All₂ R ys rs)
    (hf : ∀ y ∈ ys, ∀ r, R y r → ∀ (done : List ASym) (x : X), Inv2 base of done x →
      ∃ x', f (1 + done.length) (rsym b y r) x = .ok x' ∧ Inv2 base of (done ++ [y]) x') :
    ∀ (done : List ASym) (x : X), Inv2 base of done x →
      ∃ x', symLoop f (1 + done.length) ((ys.zip rs).map fun q => rsym b q.1 q.2) x = .ok x' ∧ Inv2 base of (done ++ ys) x' := by
  induction h with
  | nil => intro done x hi; exact ⟨x, rfl, by simpa using hi⟩
  | @cons y r ys rs h1 _ ih =>
    intro done x hi
    obtain ⟨x', e, hi'⟩ := hf y (by simp) r h1 done x hi
    obtain ⟨x'', e', hi''⟩ := ih (fun y hy => hf y (by simp [hy])) (done ++ [y]) x' hi'
    refine ⟨x'', ?_, by simpa using hi''⟩
    rw [List.zip_cons_cons, List.map_cons, symLoop, e, ok_bind]
    rw [List.length_append, List.length_cons, List.length_nil] at e'
    have : 1 + done.length + 1 = 1 + (done.length + (0 + 1)) := by omega
    rw [this]
    exact e'

theorem symbolsToXlink_ok {be : Bool} {M : Mod} (hW : M.WF) (hS : M.Small) (hE : ∀ y ∈ M.syms, y.kind = .equ → y.exported = false)
    {hdrs : List Shdr} (hH : HdrsOk M hdrs) {base : List XSec} (hl : base.length = M.secs.length) {of : Nat → Option Nat}
    (hof : ∀ k < M.secs.length, of (secId k) = some k) {strs : Bytes} {ls gs : List (Nat × Nat)} (aL : All₂ (SymRec be M 0 strs) M.locals ls)
    (aG : All₂ (SymRec be M 1 strs) M.globals gs) {sy : Shdr} (hsy : sy.info = 1 + M.locals.length) {x : X} (h : Inv2 base of [] x) :
    ∃ x', symbolsToXlink hdrs 1 sy (rsyms M ls gs) x = .ok x' ∧ Inv2 base of (M.locals ++ M.globals) x' := by
  unfold symbolsToXlink
  have hlen : (rsyms M ls gs).length = 1 + M.locals.length + M.globals.length := by
    simp only [rsyms, List.length_cons, List.length_append, List.length_map, zip_length aL, zip_length aG]; omega
  rw [hsy, if_neg (by omega)]
  have e1 : ((rsyms M ls gs).take (1 + M.locals.length)).drop 1 = (M.locals.zip ls).map fun q => rsym 0 q.1 q.2 := by
    unfold rsyms
    rw [Nat.add_comm, List.take_succ_cons, List.drop_succ_cons, List.drop_zero, List.take_left' (by rw [List.length_map, zip_length aL])]
  have e2 : (rsyms M ls gs).drop (1 + M.locals.length) = (M.globals.zip gs).map fun q => rsym 1 q.1 q.2 := by
    unfold rsyms
    rw [Nat.add_comm, List.drop_succ_cons, List.drop_left' (by rw [List.length_map, zip_length aL])]
  rw [e1, e2]
  obtain ⟨x1, h1, i1⟩ := symLoop_ok (f := addLocal hdrs 1) (b := 0) (base := base) (of := of) aL
    (fun y hy r hr done x hi => addLocal_ok hW hS hH hl hof (List.mem_filter.1 hy).1 (List.mem_filter.1 hy).2 hr hi) [] x h
  obtain ⟨x2, h2, i2⟩ := symLoop_ok (f := addGlobal hdrs 1) (b := 1) (base := base) (of := of) aG
    (fun y hy r hr done x hi => addGlobal_ok hW hS hE hH hl hof (List.mem_filter.1 hy).1 (List.mem_filter.1 hy).2 hr hi) M.locals x1 i1
  refine ⟨x2, ?_, i2⟩
  rw [show symLoop (addLocal hdrs 1) 1 _ x = _ from h1, ok_bind]
  exact h2

theorem added_exports {M : Mod} (hW : M.WF) (k : Nat) : added (M.locals ++ M.globals) k = M.exports k := by
  unfold added Mod.exports Mod.locals Mod.globals
  rw [List.filter_append, List.map_append, List.filter_filter, List.filter_filter]
  congr 1
  · have : List.filter (fun a => ASym.inSec k a && a.isLocal) M.syms = List.filter (fun y => y.kind == .label && y.sec == k && !y.exported) M.syms := by
      apply List.filter_congr
      intro y hy
      unfold ASym.inSec ASym.isLocal
      by_cases hk : y.kind = .label
      · rw [hk, (hW.labels y hy hk).2.1]; simp
      · have : (y.kind == Kind.label) = false := beq_eq_false_iff_ne.2 hk
        rw [this]; simp
    rw [this]
    apply List.map_congr_left
    intro y hy
    have := (List.mem_filter.1 hy).2
    unfold ASym.toX
    cases hx : y.exported
    · rfl
    · rw [hx] at this; simp at this
  · have : List.filter (fun a => ASym.inSec k a && (!a.isLocal && a.isGlobal)) M.syms =
        List.filter (fun y => y.kind == .label && y.sec == k && y.exported) M.syms := by
      apply List.filter_congr
      intro y hy
      unfold ASym.inSec ASym.isLocal ASym.isGlobal
      by_cases hk : y.kind = .label
      · rw [hk, (hW.labels y hy hk).2.1]; simp
      · have : (y.kind == Kind.label) = false := beq_eq_false_iff_ne.2 hk
        rw [this]; simp
    rw [this]
    apply List.map_congr_left
    intro y hy
    have := (List.mem_filter.1 hy).2
    unfold ASym.toX
    cases hx : y.exported
    · rw [hx] at this; simp at this
    · rfl

/-! ### Relocations -/

/-- The symbol with a number, as it is read. -/
theorem rsyms_get {be : Bool} {M : Mod} {strs : Bytes} {ls gs : List (Nat × Nat)} (aL : All₂ (SymRec be M 0 strs) M.locals ls)
    (aG : All₂ (SymRec be M 1 strs) M.globals gs) {i : Nat} {y : ASym} (h : (M.locals ++ M.globals)[i]? = some y) :
    ∃ b r, (rsyms M ls gs)[i + 1]? = some (rsym b y r) ∧ SymRec be M b strs y r := by
  unfold rsyms
  rw [List.getElem?_cons_succ]
  have key : ∀ {b : Nat} {ys : List ASym} {rs : List (Nat × Nat)} {i : Nat}, All₂ (SymRec be M b strs) ys rs → ys[i]? = some y →
      ∃ r, ((ys.zip rs).map fun q => rsym b q.1 q.2)[i]? = some (rsym b y r) ∧ SymRec be M b strs y r := by
    intro b ys rs i ha hi
    have hl : i < rs.length := by rw [← ha.length_eq]; exact (List.getElem?_eq_some_iff.1 hi).1
    have hr : rs[i]? = some rs[i] := List.getElem?_eq_getElem hl
    refine ⟨rs[i], ?_, ha.get hi hr⟩
    rw [List.getElem?_map, List.getElem?_zip_eq_some (z := (y, rs[i])) |>.2 ⟨hi, hr⟩]
    rfl
  by_cases hi : i < M.locals.length
  · rw [List.getElem?_append_left hi] at h
    obtain ⟨r, hr, hs⟩ := key aL h
    refine ⟨0, r, ?_, hs⟩
    rw [List.getElem?_append_left (by rw [List.length_map, zip_length aL]; exact hi)]
    exact hr
  · rw [List.getElem?_append_right (by omega)] at h
    obtain ⟨r, hr, hs⟩ := key aG h
    refine ⟨1, r, ?_, hs⟩
    rw [List.getElem?_append_right (by rw [List.length_map, zip_length aL]; omega), List.length_map, zip_length aL]
    exact hr

/-- A patch of the assembler and one of the linker, as both see them. -/
def SamePatch₀ (M : Mod) (k : Nat) (syms : List XSym) (p : APatch) (q : XPatch) : Prop :=
  q.offset = p.offset ∧ q.type = 4 ∧ ∃ n add y m e, symOffset M.syms false p.expr = some (n, add) ∧ M.syms[n]? = some y ∧
    q.expr = relocExpr false m add ∧ syms[m]? = some e ∧ Refers k y e

/-- What holds while the relocations are made. -/
structure Inv3 (M : Mod) (of : Nat → Option Nat) (x : X) : Prop where
  of : x.of = of
  syms : ∀ (k : Nat) xs, x.secs[k]? = some xs → ∃ imps, xs.symbols = M.exports k ++ imps ∧ ∀ e ∈ imps, e.type = 1 ∨ e.type = 4
  handle : ∀ (n : Nat) y, M.syms[n]? = some y → y.kind = .label → ∃ m, x.handle 1 (M.symId n) = some (y.sec, m) ∧
    (M.exports y.sec)[m]? = some y.toX

theorem inv2_inv3 {M : Mod} (hW : M.WF) {base : List XSec} {of : Nat → Option Nat} {x : X} (h : Inv2 base of (M.locals ++ M.globals) x) :
    Inv3 M of x := by
  refine ⟨h.of, fun k xs hx => ⟨[], ?_, by simp⟩, fun n y hy hk => ?_⟩
  · rw [h.secs k] at hx
    obtain ⟨s, -, rfl⟩ := Option.map_eq_some_iff.1 hx
    rw [List.append_nil]
    exact added_exports hW k
  · obtain ⟨h0, hg, -, -⟩ := symId_get hy (isLocal_or_isGlobal hW (List.mem_of_getElem? hy) (by rw [hk]; rfl))
    rw [h.handle]
    obtain ⟨i, hi⟩ : ∃ i, M.symId n = i + 1 := ⟨M.symId n - 1, by omega⟩
    rw [hi] at hg ⊢
    rw [Nat.add_sub_cancel] at hg
    rw [posOf, hg]
    simp only
    rw [if_pos hk]
    refine ⟨_, rfl, ?_⟩
    rw [← added_exports hW]
    unfold added
    rw [List.getElem?_map, filter_take_get hg (by unfold ASym.inSec; simp [hk])]
    rfl

/-- The only thing that changes is section `k`, which gets at most `n` more imports. -/
structure Grows (k n : Nat) (x x' : X) : Prop where
  other : ∀ i : Nat, i ≠ k → x'.secs[i]? = x.secs[i]?
  self : ∀ s, x.secs[k]? = some s → ∃ imps, x'.secs[k]? = some { s with symbols := s.symbols ++ imps } ∧ imps.length ≤ n ∧
    ∀ e ∈ imps, e.type = 1 ∨ e.type = 4

theorem Grows.refl (k n : Nat) (x : X) : Grows k n x x := ⟨fun _ _ => rfl, fun s h => ⟨[], by simpa using h, by simp, by simp⟩⟩

theorem Grows.trans {k n m : Nat} {x y z : X} (h : Grows k n x y) (h' : Grows k m y z) : Grows k (m + n) x z := by
  refine ⟨fun i hi => (h'.other i hi).trans (h.other i hi), fun s hs => ?_⟩
  obtain ⟨a, ha, la, ta⟩ := h.self s hs
  obtain ⟨b, hb, lb, tb⟩ := h'.self _ ha
  refine ⟨a ++ b, by rw [hb, List.append_assoc], by rw [List.length_append]; omega, ?_⟩
  intro e he
  rcases List.mem_append.1 he with he | he
  · exact ta e he
  · exact tb e he

theorem Grows.syms {M : Mod} {k n : Nat} {x x' : X} (g : Grows k n x x') (hk : ∃ s, x.secs[k]? = some s)
    (h : ∀ (k : Nat) xs, x.secs[k]? = some xs → ∃ imps, xs.symbols = M.exports k ++ imps ∧ ∀ e ∈ imps, e.type = 1 ∨ e.type = 4) :
    ∀ (k : Nat) xs, x'.secs[k]? = some xs → ∃ imps, xs.symbols = M.exports k ++ imps ∧ ∀ e ∈ imps, e.type = 1 ∨ e.type = 4 := by
  intro i xs hx
  by_cases hi : i = k
  · subst hi
    obtain ⟨s, hs⟩ := hk
    obtain ⟨a, ha, -, ta⟩ := g.self s hs
    rw [ha] at hx
    cases hx
    obtain ⟨b, hb, tb⟩ := h i s hs
    refine ⟨b ++ a, by rw [hb, List.append_assoc], ?_⟩
    intro e he
    rcases List.mem_append.1 he with he | he
    · exact tb e he
    · exact ta e he
  · rw [g.other i hi] at hx
    exact h i xs hx

theorem add_grows {x : X} {k : Nat} {s : XSec} (hs : x.secs[k]? = some s) {y : RSym} (hn : y.name.length < 255) {t : Nat}
    (ht : t = 1 ∨ t = 4) : ∃ x', x.add k y t false = .ok (s.symbols.length, x') ∧ Grows k 1 x x' ∧ x'.of = x.of ∧ x'.handle = x.handle ∧
      ∃ s', x'.secs[k]? = some s' ∧ s.symbols.length < s'.symbols.length ∧ s'.symbols[s.symbols.length]? = some ⟨y.name, t, y.sym.value, false⟩ := by
  have hl : k < x.secs.length := (List.getElem?_eq_some_iff.1 hs).1
  unfold X.add
  rw [hs]
  simp only
  rw [if_pos hn]
  refine ⟨_, rfl, ⟨fun i hi => ?_, fun s0 hs0 => ?_⟩, rfl, rfl, _, List.getElem?_set_self hl, ?_, ?_⟩
  · exact List.getElem?_set_ne (Ne.symm hi)
  · rw [hs] at hs0
    cases hs0
    refine ⟨[⟨y.name, t, y.sym.value, false⟩], List.getElem?_set_self hl, Nat.le_refl _, ?_⟩
    intro e he
    rw [List.mem_singleton.1 he]
    exact ht
  · simp
  · simp

theorem relocToXlink_ok {be : Bool} {M : Mod} (hW : M.WF) (hS : M.Small) {of : Nat → Option Nat} {strs : Bytes} {ls gs : List (Nat × Nat)}
    (aL : All₂ (SymRec be M 0 strs) M.locals ls) (aG : All₂ (SymRec be M 1 strs) M.globals gs) {k : Nat} {p : APatch} {r : Rela}
    (hr : RelOf M p r) {x : X} (h : Inv3 M of x) {s : XSec} (hs : x.secs[k]? = some s) :
    ∃ q x' s', relocToXlink k (secId k) 1 (rsyms M ls gs) r.e x = .ok (q, x') ∧ Inv3 M of x' ∧ Grows k 1 x x' ∧ x'.secs[k]? = some s' ∧
      SamePatch₀ M k s'.symbols p q := by
  obtain ⟨n, add, y, ho, hy, hsym, rfl⟩ := hr
  have hym : y ∈ M.syms := List.mem_of_getElem? hy
  have hlg := isLocal_or_isGlobal hW hym hsym
  obtain ⟨h0, hg, -, -⟩ := symId_get hy hlg
  have hlt := symId_lt hy hlg
  have hlp := length_parts M
  have hsm := hS.syms
  have hW32 : W32 = 4294967296 := rfl
  obtain ⟨b, rr, hR, hrec⟩ := rsyms_get aL aG hg
  rw [Nat.sub_add_cancel h0] at hR
  have hnum : (M.symId n * 256 + 1) % W32 = M.symId n * 256 + 1 := Nat.mod_eq_of_lt (by omega)
  have he : Rela.e ⟨p.offset, (M.symId n * 256 + 1) % W32, add⟩ = ⟨p.offset, M.symId n, 1, add⟩ := by
    unfold Rela.e
    simp only
    rw [hnum, show (M.symId n * 256 + 1) / 256 = M.symId n by omega, show (M.symId n * 256 + 1) % 256 = 1 by omega]
  rw [he]
  have hnl : (rsym b y rr).name.length < 255 := (hW.symNames y hym).2
  -- an import is added
  have imp : ∀ t, (t = 1 ∨ t = 4) → (y.kind = .label → y.sec ≠ k ∧ t = 4) → (y.kind ≠ .label → t = 1) →
      ∃ x' s', x.add k (rsym b y rr) t false = .ok (s.symbols.length, x') ∧ Inv3 M of x' ∧ Grows k 1 x x' ∧ x'.secs[k]? = some s' ∧
        s.symbols.length < s'.symbols.length ∧ SamePatch₀ M k s'.symbols p ⟨p.offset, 4, relocExpr false s.symbols.length add⟩ ∧
        (y.kind ≠ .label → ∀ hh, Inv3 M of (x'.setHandle 1 (M.symId n) hh)) := by
    intro t ht h1 h2
    obtain ⟨x', ha, hgr, hof, hha, s', hs', hl', hget⟩ := add_grows hs hnl ht
    have hsy := hgr.syms ⟨s, hs⟩ h.syms
    have hhd : ∀ (n : Nat) y, M.syms[n]? = some y → y.kind = .label → ∃ m, x'.handle 1 (M.symId n) = some (y.sec, m) ∧
        (M.exports y.sec)[m]? = some y.toX := by rw [hha]; exact h.handle
    refine ⟨x', s', ha, ⟨hof.trans h.of, hsy, hhd⟩, hgr, hs', hl', ⟨rfl, rfl, n, add, y, _, _, ho, hy, rfl, hget, rfl, ?_⟩, ?_⟩
    · by_cases hk : y.kind = .label
      · rw [if_pos hk, if_neg (h1 hk).1]
        exact (h1 hk).2
      · rw [if_neg hk]
        exact h2 hk
    · intro hk hh
      refine ⟨hof.trans h.of, hsy, fun n' y' hy' hk' => ?_⟩
      obtain ⟨m, hm, hm'⟩ := hhd n' y' hy' hk'
      refine ⟨m, ?_, hm'⟩
      show (if 1 = 1 ∧ M.symId n' = M.symId n then _ else x'.handle 1 (M.symId n')) = _
      rw [if_neg]
      · exact hm
      · rintro ⟨-, heq⟩
        have hg' := (symId_get hy' (isLocal_or_isGlobal hW (List.mem_of_getElem? hy') (by rw [hk']; rfl))).2.1
        rw [heq, hg] at hg'
        cases hg'
        exact hk hk'
  unfold relocToXlink
  simp only
  rw [if_pos (.inl trivial), if_neg (by omega), hR]
  simp only
  by_cases hk : y.kind = .label
  · obtain ⟨hc, hrel, hsec⟩ := hW.labels y hym hk
    have hn := shndx_label hk hc hsec hrec.sec
    have hys : (rsym b y rr).sec = some (secId y.sec) := by
      unfold rsym
      rw [hn]
      exact (secOf_secId hS hsec).1
    obtain ⟨m, hm, hm'⟩ := h.handle n y hy hk
    rw [hm]
    simp only
    by_cases hkk : y.sec = k
    · rw [if_neg (by rw [hys, hkk]; simp), ok_bind]
      simp only
      rw [hs]
      simp only
      obtain ⟨imps, hi, hti⟩ := h.syms k s hs
      have hget : s.symbols[m]? = some y.toX := by
        rw [hi, List.getElem?_append_left (by rw [← hkk]; exact (List.getElem?_eq_some_iff.1 hm').1), ← hkk]
        exact hm'
      rw [if_neg (by have := (List.getElem?_eq_some_iff.1 hget).1; omega)]
      refine ⟨_, x, s, rfl, h, .refl _ _ _, hs, rfl, rfl, n, add, y, m, _, ho, hy, rfl, hget, rfl, ?_⟩
      rw [if_pos hk, if_pos hkk]
      rfl
    · have hne : secId y.sec ≠ secId k := by unfold secId; omega
      rw [if_pos (by rw [hys]; intro hx; exact hne (Option.some.inj hx)), if_neg (by rw [hys]; simp)]
      obtain ⟨x', s', ha, hi, hgr, hs', hl', hsp, -⟩ := imp 4 (.inr rfl) (fun _ => ⟨hkk, rfl⟩) (fun hx => absurd hk hx)
      rw [ha, ok_bind]
      simp only
      rw [hs']
      simp only
      rw [if_neg (by omega)]
      exact ⟨_, x', s', rfl, hi, hgr, hs', hsp⟩
  · have hki : y.kind.isImport = true := by
      generalize y.kind = kk at *
      cases kk <;> first | rfl | exact absurd rfl hk | cases hsym
    have hn := shndx_import hki (hW.imports y hym hki).1 hrec.sec
    have hys : (rsym b y rr).sec = none := by
      unfold rsym
      rw [hn]
      rfl
    have hyn : (rsym b y rr).sym.shndx = 0 := hn
    obtain ⟨x', s', ha, hi, hgr, hs', hl', hsp, hset⟩ := imp 1 (.inl rfl) (fun hx => absurd hx hk) (fun _ => rfl)
    cases hhd : x.handle 1 (M.symId n) with
    | none =>
      simp only
      rw [if_pos hyn, ha, ok_bind, ok_bind]
      simp only
      rw [show (x'.setHandle 1 (M.symId n) (k, s.symbols.length)).secs = x'.secs from rfl, hs']
      simp only
      rw [if_neg (by omega)]
      exact ⟨_, _, s', rfl, hset hk _, ⟨hgr.other, hgr.self⟩, hs', hsp⟩
    | some hh =>
      simp only
      rw [if_pos (by rw [hys]; simp), if_pos hys, ha, ok_bind]
      simp only
      rw [hs']
      simp only
      rw [if_neg (by omega)]
      exact ⟨_, x', s', rfl, hi, hgr, hs', hsp⟩

theorem SamePatch₀.mono {M : Mod} {k : Nat} {l : List XSym} {p : APatch} {q : XPatch} (h : SamePatch₀ M k l p q) (l' : List XSym) :
    SamePatch₀ M k (l ++ l') p q := by
  obtain ⟨h1, h2, n, add, y, m, e, h3, h4, h5, h6, h7⟩ := h
  refine ⟨h1, h2, n, add, y, m, e, h3, h4, h5, ?_, h7⟩
  rw [List.getElem?_append_left (List.getElem?_eq_some_iff.1 h6).1]
  exact h6

theorem relocLoop_ok {be : Bool} {M : Mod} (hW : M.WF) (hS : M.Small) {of : Nat → Option Nat} {strs : Bytes} {ls gs : List (Nat × Nat)}
    (aL : All₂ (SymRec be M 0 strs) M.locals ls) (aG : All₂ (SymRec be M 1 strs) M.globals gs) {k : Nat} {ps : List APatch} {rs : List Rela}
    (hr : All₂ (RelOf M) ps rs) : ∀ {x : X} {s : XSec}, Inv3 M of x → x.secs[k]? = some s →
    ∃ qs x' s', relocLoop k (secId k) 1 (rsyms M ls gs) (rs.map Rela.e) x = .ok (qs, x') ∧ Inv3 M of x' ∧ Grows k ps.length x x' ∧
      x'.secs[k]? = some s' ∧ All₂ (SamePatch₀ M k s'.symbols) ps qs := by
  induction hr with
  | nil => intro x s h hs; exact ⟨[], x, s, rfl, h, .refl _ _ _, hs, .nil⟩
  | cons h1 _ ih =>
    intro x s h hs
    obtain ⟨q, x1, s1, e1, i1, g1, hs1, p1⟩ := relocToXlink_ok hW hS aL aG h1 h hs
    obtain ⟨qs, x2, s2, e2, i2, g2, hs2, p2⟩ := ih i1 hs1
    refine ⟨q :: qs, x2, s2, ?_, i2, g1.trans g2, hs2, .cons ?_ p2⟩
    · rw [List.map_cons, relocLoop, e1, ok_bind]
      simp only
      rw [e2, ok_bind]
    · obtain ⟨imps, hi, -, -⟩ := g2.self s1 hs1
      rw [hi] at hs2
      cases hs2
      exact p1.mono imps

/-- The patches of a section. -/
def PatchesOk (M : Mod) (k : Nat) (s : ASec) (x : XSec) : Prop :=
  (∃ ps, List.Perm ps s.patches ∧ All₂ (SamePatch₀ M k x.symbols) ps x.patches) ∧
  ∃ imps, x.symbols = M.exports k ++ imps ∧ imps.length ≤ s.patches.length ∧ ∀ e ∈ imps, e.type = 1 ∨ e.type = 4

/-- What holds before the relocations of section `i`. -/
structure Inv4 (M : Mod) (of : Nat → Option Nat) (i : Nat) (x : X) : Prop extends Inv3 M of x where
  length : x.secs.length = M.secs.length
  ok : ∀ (k : Nat) s xs, M.secs[k]? = some s → x.secs[k]? = some xs → SecOk M s xs
  fresh : ∀ (k : Nat) xs, i ≤ k → x.secs[k]? = some xs → xs.symbols = M.exports k
  done : ∀ (k : Nat) s xs, k < i → M.secs[k]? = some s → x.secs[k]? = some xs → PatchesOk M k s xs

theorem relaTabs_ok {be : Bool} {M : Mod} (hW : M.WF) (hS : M.Small) {of : Nat → Option Nat} (hof : ∀ k < M.secs.length, of (secId k) = some k)
    {strs : Bytes} {ls gs : List (Nat × Nat)}
    (aL : All₂ (SymRec be M 0 strs) M.locals ls) (aG : All₂ (SymRec be M 1 strs) M.globals gs) {hdrs : List Shdr} (hH : HdrsOk M hdrs)
    {rbodies : List RBody} (hb : rbodies[1]? = some (.syms (rsyms M ls gs))) {i : Nat} {ss : List ASec} {rr : List RBody} (h : RelBs M i ss rr) :
    M.secs.drop i = ss → ∀ {x : X}, Inv4 M of i x → ∃ x', relaTabs hdrs rbodies rr x = .ok x' ∧ Inv4 M of M.secs.length x' := by
  induction h with
  | @nil i =>
    intro hd x hi
    have hle := List.drop_eq_nil_iff.1 hd
    refine ⟨x, rfl, { hi with
      fresh := fun k xs hk hx => ?_
      done := fun k s xs hk hs hx => hi.done k s xs (by omega) hs hx }⟩
    have := (List.getElem?_eq_some_iff.1 hx).1
    have := hi.length
    omega
  | @cons s l i ss bs h1 _ ih =>
    intro hd x hi
    have hlt : i < M.secs.length := by
      by_cases hc : i < M.secs.length
      · exact hc
      · rw [List.drop_eq_nil_of_le (by omega)] at hd; cases hd
    have hsi : M.secs[i]? = some s := by
      rw [← Nat.add_zero i, ← List.getElem?_drop, hd]; rfl
    have hd' : M.secs.drop (i + 1) = ss := by
      rw [← List.drop_drop, hd]; rfl
    have hx : x.secs[i]? = some (x.secs[i]'(by rw [hi.length]; exact hlt)) := List.getElem?_eq_getElem _
    generalize x.secs[i]'(by rw [hi.length]; exact hlt) = xs at hx
    obtain ⟨ps, rs, hp, hall, rfl⟩ := h1
    obtain ⟨qs, x', s', e, i', g, hs', hq⟩ := relocLoop_ok hW hS aL aG (k := i) hall hi.toInv3 hx
    obtain ⟨imps, him, hil, hit⟩ := g.self xs hx
    have hl' : i < x'.secs.length := (List.getElem?_eq_some_iff.1 hs').1
    have hlen : x'.secs.length = x.secs.length := by
      rcases Nat.lt_trichotomy x'.secs.length x.secs.length with hc | hc | hc
      · have := g.other x'.secs.length (by omega)
        rw [List.getElem?_eq_none (Nat.le_refl _), List.getElem?_eq_getElem hc] at this
        cases this
      · exact hc
      · have h2 : x.secs.length ≠ i := by rw [hi.length]; omega
        have := g.other x.secs.length h2
        rw [List.getElem?_eq_none (Nat.le_refl x.secs.length), List.getElem?_eq_getElem hc] at this
        cases this
    obtain ⟨hd, ehd, htype, hflags⟩ := hH.prog i hlt
    obtain ⟨x'', e'', hfin⟩ := ih hd' (x := { x' with secs := x'.secs.set i { s' with patches := qs } }) (by
      refine ⟨⟨i'.of, ?_, i'.handle⟩, ?_, ?_, ?_, ?_⟩
      · intro k y hy
        by_cases hk : i = k
        · subst hk
          rw [List.getElem?_set_self hl'] at hy
          cases hy
          exact i'.syms i s' hs'
        · rw [List.getElem?_set_ne hk] at hy
          exact i'.syms k y hy
      · show (x'.secs.set i _).length = _
        rw [List.length_set, hlen, hi.length]
      · intro k s0 y hs0 hy
        by_cases hk : i = k
        · subst hk
          rw [List.getElem?_set_self hl'] at hy
          cases hy
          rw [hs'] at him
          cases him
          have := hi.ok i s0 xs hs0 hx
          exact ⟨this.name, this.group, this.loc, this.align, this.size, this.length, this.data⟩
        · rw [List.getElem?_set_ne hk, g.other k (Ne.symm hk)] at hy
          exact hi.ok k s0 y hs0 hy
      · intro k y hk0 hy
        rw [List.getElem?_set_ne (by omega), g.other k (by omega)] at hy
        exact hi.fresh k y (by omega) hy
      · intro k s0 y hk0 hs0 hy
        by_cases hk : i = k
        · subst hk
          rw [List.getElem?_set_self hl'] at hy
          cases hy
          rw [hsi] at hs0
          cases hs0
          refine ⟨⟨ps, hp, hq⟩, imps, ?_, hp.length_eq ▸ hil, hit⟩
          rw [hs'] at him
          cases him
          show xs.symbols ++ imps = _
          rw [hi.fresh i xs (Nat.le_refl _) hx]
        · rw [List.getElem?_set_ne hk, g.other k (Ne.symm hk)] at hy
          exact hi.done k s0 y (by omega) hs0 hy)
    refine ⟨x'', ?_, hfin⟩
    rw [relaTabs]
    unfold relocsToXlink
    simp only
    rw [ehd]
    simp only
    rw [if_pos ⟨htype, hflags⟩, hi.of, hof i hlt, hb]
    simp only
    rw [e, ok_bind]
    simp only
    rw [hs', ok_bind]
    exact e''

end Verif.Elf
