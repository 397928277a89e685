import Verif.Elf.Link
import Verif.Expr.AsmReduce
import Verif.Expr.LinkProps
/-!
# C54: ELF object files carry what the assembler knows to the linker
-/
namespace Verif.Elf
open Verif.Expr (Src I32 toI32 Tree)

/-! ### Expressions -/

theorem relocExpr_tree (m : Nat) {add : Nat} (h : add < W32) : relocExpr false m add = (Tree.bin .add (.sym m) (.const (toI32 add))).serialize := by
  have : Expr.u32 (toI32 add) = add := by unfold Expr.u32 Expr.toI32; omega
  simp only [Tree.serialize, relocExpr, this]
  simp [Expr.BinOp.code, put8]

theorem value_num {fm : Expr.FMath} {now : Nat → Expr.ASym} {ρ : Expr.Den} {v : Int} (h : I32 v) :
    (Src.num v).value fm Expr.wrap now ρ = some v := Expr.inRange_some.2 ⟨rfl, h⟩

theorem denotes {syms : List ASym} : ∀ {e : Src} {i : Bool} {n add : Nat}, symOffset syms i e = some (n, add) → e.Ok → ¬ Reverse e →
    Denotes e n (toI32 add) := by
  intro e
  induction e with
  | sym m =>
    intro i n add h _ _ fm now ρ a hn ha hI
    obtain ⟨rfl, rfl, -⟩ := symOffset_sym' h
    have h0 : toI32 ((0 : Nat) : Int) = 0 := by decide
    rw [h0, Int.add_zero, Expr.toI32_of hI]
    unfold Src.value
    rw [if_neg hn, ha]
    exact Expr.inRange_some.2 ⟨rfl, hI⟩
  | bin op a b iha ihb =>
    intro i n add h hO hR fm now ρ v hn hv hI
    obtain ⟨hOa, hOb⟩ := hO
    have hm := Expr.toI32_mod
    obtain ⟨hop, ⟨off, c, ha, rfl, rfl⟩ | ⟨off, c, hb, rfl, rfl⟩⟩ := symOffset_bin h
    · have hRa : ¬ Reverse a := by
        intro hx
        apply hR
        unfold Reverse
        split <;> simp_all
      have hA := iha ha hOa hRa fm now ρ v hn hv hI
      have hc : I32 c := hOb
      unfold Src.value
      rw [hA, value_num hc]
      rcases hop with rfl | rfl
      · show some (toI32 (toI32 (v + toI32 off) + c)) = _
        rw [if_pos rfl]
        congr 1
        apply Expr.toI32_congr
        unfold add32 Expr.u32 Expr.toI32
        omega
      · show some (toI32 (toI32 (v + toI32 off) - c)) = _
        rw [if_neg (by decide)]
        congr 1
        apply Expr.toI32_congr
        unfold sub32 Expr.u32 Expr.toI32
        omega
    · have hc : I32 c := hOa
      rcases hop with rfl | rfl
      · have hRb : ¬ Reverse b := fun hx => hR (.inr hx)
        have hB := ihb hb hOb hRb fm now ρ v hn hv hI
        unfold Src.value
        rw [hB, value_num hc]
        show some (toI32 (c + toI32 (v + toI32 off))) = _
        rw [if_pos rfl]
        congr 1
        apply Expr.toI32_congr
        unfold add32 Expr.u32 Expr.toI32
        omega
      · exact absurd trivial hR
  | _ => intro i m add h; cases h

theorem samePatch {M : Mod} {k : Nat} {l : List XSym} {p : APatch} {q : XPatch} (hO : p.expr.Ok) (hR : ¬ Reverse p.expr)
    (h : SamePatch₀ M k l p q) : SamePatch M k l p q := by
  obtain ⟨h1, h2, n, add, y, m, e, h3, h4, h5, h6, h7⟩ := h
  exact ⟨h1, h2, n, toI32 add, y, m, e, denotes h3 hO hR, Expr.toI32_range _, h4, by rw [h5, relocExpr_tree m (symOffset_lt h3)], h6, h7⟩

/-! ### The whole file -/

theorem symTabs_skip {hdrs : List Shdr} : ∀ {l : List (Shdr × RBody)} {i : Nat} {x : X}, (∀ q ∈ l, ∀ ys, q.2 ≠ .syms ys) →
    symTabs hdrs i l x = .ok x := by
  intro l
  induction l with
  | nil => intros; rfl
  | cons q l ih =>
    intro i x h
    obtain ⟨hd, b⟩ := q
    have hb := h (hd, b) (by simp)
    cases b with
    | syms ys => exact absurd rfl (hb ys)
    | rela t s l => rw [symTabs]; exact ih fun q hq => h q (by simp [hq]); rintro _ _ ⟨⟩
    | other => rw [symTabs]; exact ih fun q hq => h q (by simp [hq]); rintro _ _ ⟨⟩

theorem RelBs.rela {M : Mod} {i : Nat} {ss : List ASec} {rr : List RBody} (h : RelBs M i ss rr) : ∀ b ∈ rr, ∃ j l, b = .rela (some j) 1 l := by
  induction h with
  | nil => intro b hb; cases hb
  | cons _ _ ih =>
    intro b hb
    rcases List.mem_cons.1 hb with rfl | hb
    · exact ⟨_, _, rfl⟩
    · exact ih b hb

theorem relaTabs_others {hdrs : List Shdr} {bodies : List RBody} {ss : List ASec} {rr : List RBody} {x : X} :
    relaTabs hdrs bodies (ss.map (fun _ => .other) ++ rr) x = relaTabs hdrs bodies rr x := by
  induction ss with
  | nil => rfl
  | cons s ss ih => rw [List.map_cons, List.cons_append, relaTabs]; exact ih; intro a b c h; cases h

theorem All₂.get₂ {R : α → β → Prop} {l : List α} {m : List β} (h : All₂ R l m) {i : Nat} {b : β} (hb : m[i]? = some b) :
    ∃ a, l[i]? = some a ∧ R a b := by
  have hl : i < l.length := by rw [h.length_eq]; exact (List.getElem?_eq_some_iff.1 hb).1
  exact ⟨l[i], List.getElem?_eq_getElem hl, h.get (List.getElem?_eq_getElem hl) hb⟩

theorem link_ok {be : Bool} {M : Mod} (hW : M.WF) (hS : M.Small) (hE : ∀ y ∈ M.syms, y.kind = .equ → y.exported = false)
    {file strs : Bytes} {hdrs : List Shdr} {names : List Bytes} {bodies : List Body} {rbodies : List RBody} {hs : List Shdr}
    {ls gs : List (Nat × Nat)} (h : Loaded be M file strs hdrs names bodies rbodies hs ls gs) :
    ∃ x of, link hdrs names bodies rbodies = .ok x.secs ∧ Inv4 M of M.secs.length x := by
  obtain ⟨⟨z, sy, st, rs, rfl, hz, hsy, hinfo, hst, hrs, hrt⟩, ⟨n0, n1, n2, rn, rfl, hrn⟩, ⟨b0, b1, b2, pb, rb, rfl, aP, hrb⟩, ⟨rr, rfl, aR⟩, aS, aL, aG⟩ := h
  have hl1 : hs.length = M.secs.length := aS.length_eq.symm
  have hl2 : pb.length = M.secs.length := aP.length_eq.symm
  -- headers
  have hH : HdrsOk M (z :: sy :: st :: (hs ++ rs)) := by
    refine ⟨fun k hk => ?_⟩
    have hsk : M.secs[k]? = some M.secs[k] := List.getElem?_eq_getElem hk
    have hhk : hs[k]? = some (hs[k]'(by omega)) := List.getElem?_eq_getElem _
    have hh := aS.get hsk hhk
    refine ⟨hs[k]'(by omega), ?_, ?_, ?_⟩
    · unfold secId
      rw [Nat.add_comm, List.getElem?_cons_succ, List.getElem?_cons_succ, List.getElem?_cons_succ, List.getElem?_append_left (by omega)]
      exact hhk
    · rw [hh.type]; split
      · exact .inl rfl
      · exact .inr rfl
    · rw [hh.flags]
      split
      · split <;> decide
      · decide
  -- sections
  obtain ⟨xs, aX, e1⟩ := sections_ok hW (fun s hs => hs) aS aP 3 ⟨[], fun _ => none, fun _ _ => none⟩
  have e2 : sectionsToXlink 0 ((z :: sy :: st :: (hs ++ rs)).zip ((n0 :: n1 :: n2 :: (M.secs.map ASec.name ++ rn)).zip
      (b0 :: b1 :: b2 :: (pb ++ rb)))) ⟨[], fun _ => none, fun _ _ => none⟩ = .ok ⟨[] ++ xs,
        fun j => if 3 ≤ j ∧ j < 3 + M.secs.length then some (0 + (j - 3)) else none, fun _ _ => none⟩ := by
    have ez : (M.secs.map ASec.name ++ rn).zip (pb ++ rb) = (M.secs.map ASec.name).zip pb ++ rn.zip rb :=
      List.zip_append (by rw [List.length_map]; omega)
    simp only [List.zip_cons_cons]
    rw [ez, List.zip_append (by rw [List.length_zip, List.length_map]; omega)]
    rw [sectionsToXlink, sectionToXlink_none (by omega) (by omega), ok_bind]
    simp only
    rw [sectionsToXlink, sectionToXlink_none (by omega) (by omega), ok_bind]
    simp only
    rw [sectionsToXlink, sectionToXlink_none (by omega) (by omega), ok_bind]
    simp only
    rw [sections_append e1]
    apply sections_skip
    intro q hq
    have := hrt q.1 (List.of_mem_zip (show (q.1, q.2) ∈ rs.zip (rn.zip rb) from hq)).1
    omega
  unfold link
  rw [e2, ok_bind]
  -- symbols
  generalize hof : (fun j => if 3 ≤ j ∧ j < 3 + M.secs.length then some (0 + (j - 3)) else none : Nat → Option Nat) = of
  have hof' : ∀ k < M.secs.length, of (secId k) = some k := by
    intro k hk
    rw [← hof]
    unfold secId
    simp only
    rw [if_pos (by omega)]
    congr 1
    omega
  have hxl : xs.length = M.secs.length := aX.length_eq.symm
  have i0 : Inv2 xs of [] ⟨[] ++ xs, of, fun _ _ => none⟩ := by
    refine ⟨rfl, fun k => ?_, fun i => ?_⟩
    · show ([] ++ xs)[k]? = _
      rw [List.nil_append]
      cases hk : xs[k]? with
      | none => rfl
      | some x =>
        obtain ⟨s, -, -, hsym, -⟩ := aX.get₂ hk
        rw [Option.map_some]
        congr 1
        cases x
        simp only at hsym
        subst hsym
        rfl
    · cases i <;> rfl
  obtain ⟨x1, e3, i1⟩ := symbolsToXlink_ok hW hS hE hH hxl hof' aL aG hinfo i0
  have e4 : symTabs (z :: sy :: st :: (hs ++ rs)) 0 ((z :: sy :: st :: (hs ++ rs)).zip
      (.other :: .syms (rsyms M ls gs) :: .other :: (M.secs.map (fun _ => .other) ++ rr))) ⟨[] ++ xs, of, fun _ _ => none⟩ = .ok x1 := by
    rw [List.zip_cons_cons, List.zip_cons_cons, List.zip_cons_cons]
    rw [symTabs, symTabs, e3, ok_bind]
    · refine symTabs_skip ?_
      intro q hq ys hy
      rcases List.mem_cons.1 hq with rfl | hq
      · cases hy
      · have := (List.of_mem_zip (show (q.1, q.2) ∈ (hs ++ rs).zip (M.secs.map (fun _ => .other) ++ rr) from hq)).2
        rcases List.mem_append.1 this with hm | hm
        · obtain ⟨-, -, hq'⟩ := List.mem_map.1 hm
          rw [hy] at hq'
          cases hq'
        · obtain ⟨j, l, hl⟩ := aR.rela _ hm
          rw [hy] at hl
          cases hl
    · rintro _ _ ⟨⟩
  rw [e4, ok_bind]
  -- relocations
  have i4 : Inv4 M of 0 x1 := by
    have hlen : x1.secs.length = xs.length := by
      rcases Nat.lt_trichotomy x1.secs.length xs.length with hc | hc | hc
      · have := i1.secs x1.secs.length
        rw [List.getElem?_eq_none (Nat.le_refl _), List.getElem?_eq_getElem hc] at this
        cases this
      · exact hc
      · have := i1.secs xs.length
        rw [List.getElem?_eq_none (Nat.le_refl xs.length), List.getElem?_eq_getElem hc] at this
        cases this
    refine { inv2_inv3 hW i1 with length := hlen.trans hxl, ok := ?_, fresh := ?_, done := fun k _ _ hk => absurd hk (by omega) }
    · intro k s y hs hy
      rw [i1.secs k] at hy
      obtain ⟨x, hx, rfl⟩ := Option.map_eq_some_iff.1 hy
      have := (aX.get hs hx).1
      exact ⟨this.name, this.group, this.loc, this.align, this.size, this.length, this.data⟩
    · intro k y _ hy
      rw [i1.secs k] at hy
      obtain ⟨x, hx, rfl⟩ := Option.map_eq_some_iff.1 hy
      exact added_exports hW k
  obtain ⟨x2, e5, i5⟩ := relaTabs_ok hW hS hof' aL aG hH (rbodies := .other :: .syms (rsyms M ls gs) :: .other ::
    (M.secs.map (fun _ => .other) ++ rr)) rfl aR rfl i4
  refine ⟨x2, of, ?_, i5⟩
  have e6 : relaTabs (z :: sy :: st :: (hs ++ rs)) (.other :: .syms (rsyms M ls gs) :: .other :: (M.secs.map (fun _ => .other) ++ rr))
      (.other :: .syms (rsyms M ls gs) :: .other :: (M.secs.map (fun _ => .other) ++ rr)) x1 = .ok x2 := by
    show relaTabs _ _ (M.secs.map (fun _ => .other) ++ rr) x1 = _
    rw [relaTabs_others]
    exact e5
  rw [e6, ok_bind]

/-- **C54.** What the assembler writes as an ELF file is what the linker reads: the same sections, with the same names, addresses,
alignments, sizes and contents; the same labels; and at the place of each patch the sum of the symbol and the offset that it stands for. -/
theorem C54_round_trip (be : Bool) (M : Mod) (hW : M.WF) (hS : M.Small) (hP : M.Plain)
    (hE : ∀ y ∈ M.syms, y.kind = .equ → y.exported = false) (file : Bytes) (hf : file.length < W32) (h : write be M = .ok file) :
    ∃ xs, read file = .ok xs ∧ Same M xs := by
  obtain ⟨strs, hdrs, w⟩ := write_ok h
  obtain ⟨names, bodies, rbodies, hs, ls, gs, e, L⟩ := read_link hW hS hf w
  obtain ⟨x, of, e', i⟩ := link_ok hW hS hE L
  refine ⟨x.secs, e.trans e', i.length, fun k s xs hs hx => ?_⟩
  have hk : k < M.secs.length := (List.getElem?_eq_some_iff.1 hs).1
  have h1 := i.ok k s xs hs hx
  obtain ⟨⟨ps, hp, hall⟩, imps, hi, hil, hit⟩ := i.done k s xs hk hs hx
  refine ⟨h1.name, h1.group, h1.loc, h1.align, h1.size, h1.length, h1.data, ⟨imps, hi, hil, hit⟩, ps, hp, hall.length_eq, fun j p q hpj hqj => ?_⟩
  have hm : p ∈ s.patches := hp.mem_iff.1 (List.mem_of_getElem? hpj)
  have := hP s (List.mem_of_getElem? hs) p hm
  exact samePatch this.1 this.2 (hall.get hpj hqj)

/-- An example of a module: `code` with a local label, an exported one, and a patch; `bss` at a fixed address. -/
def mod0 : Mod := ⟨8, [⟨[0x43], true, false, none, none, 10, 16, [1, 2, 3, 4, 5, 6, 7, 8, 9, 10],
    [⟨6, 4, .bin .add (.sym 2) (.num 5)⟩]⟩, ⟨[0x42], false, false, some 0x1000, some 4, 7, 0, [], []⟩],
  [⟨[0x61], .label, 0, 4, false, true, true, false, false⟩, ⟨[0x62], .label, 1, 2, false, true, true, true, false⟩,
   ⟨[0x63], .imported, 0, 0, false, true, true, false, false⟩, ⟨[0x64], .equ, 0, 9, true, false, true, false, false⟩]⟩

theorem mod0_ok : mod0.WF ∧ mod0.Small ∧ mod0.Plain := by
  refine ⟨⟨by decide, by decide, by decide, by decide, by decide, by decide, by decide, by decide, by decide, by decide, by decide, by decide,
    by decide⟩, ⟨by decide, by decide⟩, ?_⟩
  intro s hs p hp
  simp only [mod0, List.mem_cons, List.not_mem_nil, or_false] at hs
  rcases hs with rfl | rfl
  · simp only [List.mem_cons, List.not_mem_nil, or_false] at hp
    subst hp
    exact ⟨⟨trivial, by unfold Src.Ok I32; decide⟩, by simp [Reverse]⟩
  · cases hp

example : ∃ xs, (write false mod0).bind read = .ok xs ∧ Same mod0 xs := by
  have h : ∃ file, write false mod0 = .ok file ∧ file.length < W32 := by
    have : Outcome.bind (write false mod0) (fun f => .ok f.length) = .ok 488 := by decide +kernel
    obtain ⟨f, hf, hl⟩ := bind_ok this
    injection hl with hl
    exact ⟨f, hf, by rw [hl]; decide⟩
  obtain ⟨file, hw, hl⟩ := h
  rw [hw, ok_bind]
  exact C54_round_trip false mod0 mod0_ok.1 mod0_ok.2.1 mod0_ok.2.2 (by decide) file hl hw

/-- The value that the linker computes for a patch is the value of the expression in the source. -/
theorem C54_patch_value (e : Src) (n m : Nat) (hm : m < W32) (c a : Int) (hc : I32 c) (hd : Denotes e n c) (fm : Expr.FMath) (env : Expr.Env)
    (ρ ρ' : Expr.Den) (now : Nat → Expr.ASym) (hp : env.Places ρ') (hn : ¬ (now n).type.constant) (h1 : ρ.sym n = some a)
    (h2 : ρ'.sym m = some a) (hr : I32 (a + c)) :
    ∃ v, e.value fm Expr.wrap now ρ = some v ∧
      Expr.calculate fm env (Tree.bin .add (.sym m) (.const c)).serialize = .ok (some ⟨none, v⟩) := by
  have ha := hp.symRange m a h2
  refine ⟨a + c, by rw [hd fm now ρ a hn h1 ha, Expr.toI32_of hr], ?_⟩
  refine Expr.C12_value_is_computed fm env ρ' hp (.bin .add (.sym m) (.const c)) (by unfold Tree.Ok; exact ⟨hm, hc⟩) (by simp [Tree.Regular]) (by simp [Tree.depth]) _ ?_
  simp only [Tree.value, h2, Option.bind_some, Expr.inRange_some.2 ⟨rfl, ha⟩, Expr.inRange_some.2 ⟨rfl, hc⟩]
  show (Expr.inRange (a + c)) = _
  exact Expr.inRange_some.2 ⟨rfl, hr⟩

example : ∃ v, (Src.bin .add (.sym 2) (.num 5)).value Expr.fm0 Expr.wrap (fun _ => ⟨.imported, none, 0⟩)
      { Expr.den0 with sym := fun n => if n = 2 then some 0x8000 else none } = some v ∧
    Expr.calculate Expr.fm0 Expr.env0 (Tree.bin .add (.sym 1) (.const 5)).serialize = .ok (some ⟨none, v⟩) :=
  C54_patch_value (.bin .add (.sym 2) (.num 5)) 2 1 (by decide) 5 0x8000 (by decide)
    (denotes (syms := mod0.syms) (i := false) (add := 5) (e := .bin .add (.sym 2) (.num 5)) (by decide) (by unfold Src.Ok Src.Ok I32; decide) (by simp [Reverse]))
    _ _ _ _ _ Expr.places0 (by decide) rfl (by decide) (by decide)

/-! ### The format -/

theorem RelHdrs.get {be : Bool} {M : Mod} {file strs : Bytes} {i : Nat} {ss : List ASec} {hs : List Shdr} (h : RelHdrs be M file strs i ss hs) :
    ∀ {j : Nat} {s : ASec}, ss[j]? = some s → ∃ hd, hs[j]? = some hd ∧ RelHdr be M file strs (i + j) s hd := by
  induction h with
  | nil => intro j s hj; simp at hj
  | cons h1 _ ih =>
    intro j s hj
    cases j with
    | zero => cases hj; exact ⟨_, rfl, h1⟩
    | succ j =>
      obtain ⟨hd, h2, h3⟩ := ih hj
      exact ⟨hd, h2, by rw [Nat.add_right_comm] at h3; exact h3⟩

theorem All₂.get' {R : α → β → Prop} {l : List α} {m : List β} (h : All₂ R l m) {i : Nat} {a : α} (ha : l[i]? = some a) :
    ∃ b, m[i]? = some b ∧ R a b := by
  obtain ⟨hi, -⟩ := List.getElem?_eq_some_iff.1 ha
  have hb := List.getElem?_eq_getElem (h.length_eq ▸ hi : i < m.length)
  exact ⟨_, hb, h.get ha hb⟩

/-- **C54.** A file that is written is an ELF object file. -/
theorem C54_format (be : Bool) (M : Mod) (hW : M.WF) (file : Bytes) (h : write be M = .ok file) : ∃ shoff hdrs strs, Format be M file shoff hdrs strs := by
  obtain ⟨strs, hdrs, ⟨shoff, rest, hf, hle, htab⟩, -, -, sy, st, hs, rs, ls, gs, eh, hsec, hrel, hls, hgs, ⟨o1, rfl, -, -⟩, ⟨o2, rfl, -, h2⟩, n1, n2⟩ :=
    write_ok h
  have l1 := hsec.length_eq
  have l2 := hrel.length_eq
  refine ⟨shoff, hdrs, strs, ?_⟩
  subst eh
  constructor
  · rw [hf, List.take_left' (length_elfHeader _ _ _ _)]
    cases be <;> simp [elfHeader, halves, words, putHalf, putWord, List.replicate]
  · refine ⟨hle.1, hle.2, ?_⟩
    have e : (fun h : Shdr => words be [h.name, h.type, h.flags, h.addr, h.offset, h.size, h.link, h.info, h.align, h.entsize]) = Shdr.put be := by
      funext h
      cases be <;> simp [words, Shdr.put, putWord]
    rw [e]
    exact htab
  · simp only [List.length_cons, List.length_append]
    omega
  · rfl
  · exact ⟨o1, by simp only [List.getElem?_cons_succ, List.getElem?_cons_zero]; rw [Nat.mul_comm]⟩
  · exact ⟨o2, rfl, h2⟩
  · exact ⟨n1.1, n2.1⟩
  · intro i s hi
    obtain ⟨hd, e1, e2⟩ := hsec.get' hi
    have hm := List.mem_of_getElem? hi
    have hlt := (List.getElem?_eq_some_iff.1 e1).1
    refine ⟨hd, ?_, e2.name.1, ?_, e2.addr, e2.size, e2.align, ?_⟩
    · rw [show 3 + i = i + 1 + 1 + 1 by omega]
      simp only [List.getElem?_cons_succ]
      rw [List.getElem?_append_left hlt, e1]
    · rw [e2.type, e2.flags]
      cases s.text <;> simp
    · intro ht
      obtain ⟨d, hd1, hd2, hd3⟩ := e2.data ht
      refine ⟨hd3, by rw [e2.align]; exact e2.aligned ht, ?_⟩
      have := hd2.le e2.offset
      rwa [length_clear hd1, hW.data s hm ht] at this
  · intro i s hi
    obtain ⟨hd, e1, e2⟩ := hrel.get hi
    obtain ⟨r, hr1, -, hr3⟩ := e2.relocs
    refine ⟨hd, ?_, e2.name.1, e2.type, e2.flags, ?_, e2.link, ?_, e2.entsize⟩
    · rw [show 3 + M.secs.length + i = M.secs.length + i + 1 + 1 + 1 by omega]
      simp only [List.getElem?_cons_succ]
      rw [List.getElem?_append_right (by omega), ← e1]
      congr 1
      omega
    · rw [hr3, ← (relocs_ok hr1).length_eq, Nat.mul_comm]
    · rw [e2.info, Nat.zero_add]
      rfl

example : ∃ file, write false mod0 = .ok file ∧ ∃ shoff hdrs strs, Format false mod0 file shoff hdrs strs := by
  have : Outcome.bind (write false mod0) (fun f => .ok f.length) = .ok 488 := by decide +kernel
  obtain ⟨f, hf, -⟩ := bind_ok this
  exact ⟨f, hf, C54_format false mod0 mod0_ok.1 f hf⟩

/-! ### When a file is written -/

theorem align_total (w : W) {n : Nat} (h : n ≠ 0) : ∃ w', w.align n = .ok w' := by
  unfold W.align
  rw [if_neg h]
  exact ⟨_, rfl⟩

theorem clear_total : ∀ {ps : List APatch} {alloc : Nat} {data : Bytes}, (∀ p ∈ ps, p.offset + 4 ≤ alloc) → ∃ d, clear alloc data ps = .ok d := by
  intro ps
  induction ps with
  | nil => intros; exact ⟨_, rfl⟩
  | cons p ps ih =>
    intro alloc data h
    rw [clear, if_pos (h p (by simp))]
    exact ih fun q hq => h q (by simp [hq])

/-- The conditions under which a file is written. -/
structure Mod.Writable (M : Mod) : Prop where
  align : M.sectionAlignment ≠ 0
  aligned : ∀ s ∈ M.secs, s.align ≠ some 0
  load : ∀ s ∈ M.secs, s.load ≠ some 0
  room : ∀ s ∈ M.secs, s.text = true → ∀ p ∈ s.patches, p.offset + 4 ≤ s.alloc
  exprs : ∀ s ∈ M.secs, ∀ p ∈ s.patches, ∃ n add, symOffset M.syms false p.expr = some (n, add)

theorem writeSections_total {M : Mod} (h : M.Writable) : ∀ {ss : List ASec} (w : W), (∀ s ∈ ss, s ∈ M.secs) → ∃ w', writeSections M ss w = .ok w' := by
  intro ss
  induction ss with
  | nil => intro w _; exact ⟨w, rfl⟩
  | cons s ss ih =>
    intro w hm
    have hs := hm s (by simp)
    have hone : ∃ w', writeSection M s w = .ok w' := by
      unfold writeSection
      rw [if_neg (h.load s hs)]
      have ha : s.align.getD M.sectionAlignment ≠ 0 := by
        have := h.aligned s hs
        cases hl : s.align with
        | none => exact h.align
        | some a => rintro rfl; exact this hl
      obtain ⟨v, hv⟩ := align_total w ha
      simp only
      rw [hv, ok_bind]
      split
      · rename_i ht
        obtain ⟨d, hd⟩ := clear_total (data := s.data) (h.room s hs ht)
        rw [hd, ok_bind]
        exact ⟨_, rfl⟩
      · exact ⟨_, rfl⟩
    obtain ⟨v, hv⟩ := hone
    rw [writeSections, hv, ok_bind]
    exact ih v fun s hs => hm s (by simp [hs])

theorem shndx_total {M : Mod} (hW : M.WF) {y : ASym} (hy : y ∈ M.syms) (h : y.isLocal = true ∨ (!y.isLocal && y.isGlobal) = true) :
    ∃ k, M.shndx y = .ok k := by
  unfold Mod.shndx
  by_cases hc : y.constant = true
  · rw [if_pos hc]; exact ⟨_, rfl⟩
  · rw [if_neg hc]
    by_cases hi : y.kind = .global ∨ y.kind = .imported
    · rw [if_pos hi]; exact ⟨_, rfl⟩
    · rw [if_neg hi]
      have hk : y.kind = .label := by
        have he := hW.equs y hy
        unfold ASym.isLocal ASym.isGlobal at h
        generalize y.kind = k at *
        cases k
        · rfl
        · exact absurd (he rfl) hc
        · simp at hi
        · simp at hi
        · simp at h
      rw [if_pos (hW.labels y hy hk).2.2]
      exact ⟨_, rfl⟩

theorem writeSymbols_total {be : Bool} {M : Mod} {b : Nat} : ∀ {ys : List ASym} (w : W), (∀ y ∈ ys, ∃ k, M.shndx y = .ok k) →
    ∃ w', writeSymbols be M b ys w = .ok w' := by
  intro ys
  induction ys with
  | nil => intro w _; exact ⟨w, rfl⟩
  | cons y ys ih =>
    intro w h
    obtain ⟨k, hk⟩ := h y (by simp)
    rw [writeSymbols, hk, ok_bind]
    exact ih _ fun y hy => h y (by simp [hy])

theorem relocs_total {M : Mod} : ∀ {ps : List APatch}, (∀ p ∈ ps, ∃ n add, symOffset M.syms false p.expr = some (n, add)) →
    ∃ rs, relocs M ps = .ok rs := by
  intro ps
  induction ps with
  | nil => intro _; exact ⟨[], rfl⟩
  | cons p ps ih =>
    intro h
    obtain ⟨n, add, hs⟩ := h p (by simp)
    obtain ⟨rs, hr⟩ := ih fun q hq => h q (by simp [hq])
    rw [relocs, hs]
    simp only
    rw [hr, ok_bind]
    exact ⟨_, rfl⟩

theorem writeRelocs_total {be : Bool} {M : Mod} (h : M.Writable) : ∀ {ss : List ASec} (i : Nat) (w : W), (∀ s ∈ ss, s ∈ M.secs) →
    ∃ w', writeRelocs be M i ss w = .ok w' := by
  intro ss
  induction ss with
  | nil => intro i w _; exact ⟨w, rfl⟩
  | cons s ss ih =>
    intro i w hm
    have hone : ∃ w', writeReloc be M i s w = .ok w' := by
      unfold writeReloc
      obtain ⟨v, hv⟩ := align_total w (by decide : 4 ≠ 0)
      obtain ⟨rs, hr⟩ := relocs_total (h.exprs s (hm s (by simp)))
      rw [hv, ok_bind, hr, ok_bind]
      exact ⟨_, rfl⟩
    obtain ⟨v, hv⟩ := hone
    rw [writeRelocs, hv, ok_bind]
    exact ih _ v fun s hs => hm s (by simp [hs])

/-- **C54.** A file is written whenever alignments are not zero, no section is fixed at 0, every patch leaves room for four bytes, and
every expression is a symbol, or an import with an offset. -/
theorem C54_written (be : Bool) (M : Mod) (hW : M.WF) (h : M.Writable) : ∃ file, write be M = .ok file := by
  unfold write
  obtain ⟨w1, h1⟩ := writeSections_total h (start be) (fun s hs => hs)
  have h52 : 52 ≤ (start be).file.length := by rw [start_file, length_elfHeader]; exact Nat.le_refl _
  obtain ⟨l1, hs, e1, -⟩ := writeSections_ok h1 h52
  have p1 : 52 ≤ w1.file.length := Nat.le_trans h52 l1.file.length_le
  rw [h1, ok_bind]
  have h2 : ∃ w2, writeSymbolSection be M w1 = .ok w2 ∧ 3 ≤ w2.hdrs.length ∧ 52 ≤ w2.file.length := by
    unfold writeSymbolSection
    obtain ⟨v1, hv1⟩ := align_total w1 (by decide : 4 ≠ 0)
    obtain ⟨-, l2, eh, es⟩ := W.align_ok hv1
    rw [hv1, ok_bind]
    simp only
    obtain ⟨v2, hv2⟩ := writeSymbols_total (be := be) (b := 0) (v1.put (symRecord be 0 0 0 0)) (ys := M.locals)
      (fun y hy => shndx_total hW (List.mem_filter.1 hy).1 (.inl (List.mem_filter.1 hy).2))
    have hpos : 0 < v1.strs.length := by
      have := (l1.trans l2).strs.length_le
      rw [start_strs] at this
      exact Nat.lt_of_lt_of_le (by decide) this
    obtain ⟨l3, eh3, -⟩ := writeSymbols_ok hv2 hpos
    rw [hv2, ok_bind]
    obtain ⟨v3, hv3⟩ := writeSymbols_total (be := be) (b := 1) v2 (ys := M.globals)
      (fun y hy => shndx_total hW (List.mem_filter.1 hy).1 (.inr (List.mem_filter.1 hy).2))
    obtain ⟨l4, eh4, -⟩ := writeSymbols_ok hv3 (Nat.lt_of_lt_of_le hpos l3.strs.length_le)
    rw [hv3, ok_bind]
    have e : v3.hdrs = (start be).hdrs ++ hs := by rw [eh4, eh3]; exact eh.trans e1
    have hl : 3 ≤ v3.hdrs.length := by rw [e, start_hdrs]; simp
    rw [List.getElem?_eq_getElem (by omega : 1 < v3.hdrs.length)]
    refine ⟨_, rfl, by simpa using hl, ?_⟩
    exact Nat.le_trans p1 (Nat.le_trans l2.file.length_le (Nat.le_trans (List.prefix_append v1.file _).length_le (l3.trans l4).file.length_le))
  obtain ⟨w2, h2, hl2, hf2⟩ := h2
  rw [h2, ok_bind]
  obtain ⟨w3, h3⟩ := writeRelocs_total (be := be) h 0 w2 (fun s hs => hs)
  obtain ⟨l5, rs, e5, -⟩ := writeRelocs_ok h3 hf2
  rw [h3, ok_bind]
  have h4 : ∃ w4, writeStrings w3 = .ok w4 := by
    unfold writeStrings
    obtain ⟨v, hv⟩ := align_total w3 (by decide : 4 ≠ 0)
    obtain ⟨-, -, eh, -⟩ := W.align_ok hv
    rw [hv, ok_bind, List.getElem?_eq_getElem (by rw [eh, e5, List.length_append]; omega : 2 < v.hdrs.length)]
    exact ⟨_, rfl⟩
  obtain ⟨w4, h4⟩ := h4
  rw [h4, ok_bind]
  unfold writeSectionHeaders
  obtain ⟨v, hv⟩ := align_total w4 (by decide : 4 ≠ 0)
  rw [hv, ok_bind]
  exact ⟨_, rfl⟩

example : mod0.Writable := ⟨by decide, by decide, by decide, by decide, by
  intro s hs p hp
  simp only [mod0, List.mem_cons, List.not_mem_nil, or_false] at hs
  rcases hs with rfl | rfl
  · simp only [List.mem_cons, List.not_mem_nil, or_false] at hp
    subst hp
    exact ⟨2, 5, by decide⟩
  · cases hp⟩

/-! ### What goes wrong -/

/-- A label of the file plus an offset is refused: only imports may have offsets. -/
theorem C54_label_offset_refused (syms : List ASym) (n : Nat) (y : ASym) (h : syms[n]? = some y) (hk : y.kind = .label) (c : Int) :
    symOffset syms false (.sym n) = some (n, 0) ∧ symOffset syms false (.bin .add (.sym n) (.num c)) = none ∧
      symOffset syms false (.bin .sub (.sym n) (.num c)) = none := by
  refine ⟨by simp [symOffset, h, hk, Kind.isSymbolic], ?_, ?_⟩ <;>
    simp [symOffset, h, hk, Kind.isImport]

def dcl (e : Src) (bytes : Nat) : Mod := ⟨8, [⟨[0x43], true, false, none, none, 4, 4, [1, 2, 3, 4], [⟨0, bytes, e⟩]⟩],
  [⟨[0x61], .label, 0, 2, false, true, true, false, false⟩, ⟨[0x62], .imported, 0, 0, false, true, true, false, false⟩,
    ⟨[0x63], .equ, 0, 9, true, false, true, true, false⟩]⟩

/-- `DC.L label+1` cannot be written. -/
theorem C54_label_offset : write true (dcl (.bin .add (.sym 0) (.num 1)) 4) = .fail := by decide +kernel

def unexport (M : Mod) : Mod := { M with syms := M.syms.take 2 }

/-- A patch of 16 bits becomes one of 32 bits, and the two bytes behind it are lost. -/
theorem C54_short_patch : ∃ file xs x q, write true (unexport (dcl (.sym 1) 2)) = .ok file ∧ read file = .ok xs ∧ xs[0]? = some x ∧
    x.patches = [q] ∧ q.type = 4 ∧ x.data = [0, 0, 0, 0] := by
  have h : (write true (unexport (dcl (.sym 1) 2))).bind read =
    .ok [⟨[0x43], .code, none, some 8, 4, [0, 0, 0, 0], [⟨[0x61], 3, 2, false⟩, ⟨[0x62], 1, 0, false⟩], [⟨0, 4, relocExpr false 1 0⟩]⟩] := by decide +kernel
  obtain ⟨file, hf, hr⟩ := bind_ok h
  exact ⟨file, _, _, _, hf, hr, rfl, rfl, rfl, rfl⟩

/-- A patch of 16 bits at the end of the memory of a section is cleared beyond that memory. -/
theorem C54_short_patch_end : write true ⟨8, [⟨[0x43], true, false, none, none, 2, 2, [1, 2], [⟨0, 2, .sym 0⟩]⟩],
    [⟨[0x62], .imported, 0, 0, false, true, true, false, false⟩]⟩ = .ub := by decide +kernel

/-- `5-import` becomes `import+5`. -/
theorem C54_reverse : ∃ file xs x, write true (unexport (dcl (.bin .sub (.num 5) (.sym 1)) 4)) = .ok file ∧ read file = .ok xs ∧
    xs[0]? = some x ∧ x.patches.map XPatch.expr = [(Tree.bin .add (.sym 1) (.const 5)).serialize] ∧
    (x.symbols[1]?).map XSym.name = some [0x62] := by
  have h : (write true (unexport (dcl (.bin .sub (.num 5) (.sym 1)) 4))).bind read =
    .ok [⟨[0x43], .code, none, some 8, 4, [0, 0, 0, 0], [⟨[0x61], 3, 2, false⟩, ⟨[0x62], 1, 0, false⟩], [⟨0, 4, relocExpr false 1 5⟩]⟩] := by decide +kernel
  obtain ⟨file, hf, hr⟩ := bind_ok h
  exact ⟨file, _, _, hf, hr, rfl, by decide, rfl⟩

/-- The linker crashes on a file that exports a constant. -/
theorem C54_exported_constant : ∃ file, write true (dcl (.sym 1) 4) = .ok file ∧ read file = .ub := by
  have h : (match write true (dcl (.sym 1) 4) with | .ok f => decide (read f = .ub) | _ => false) = true := by decide +kernel
  revert h
  cases write true (dcl (.sym 1) 4) with
  | ok f => intro h; exact ⟨f, rfl, of_decide_eq_true h⟩
  | fail => intro h; cases h
  | ub => intro h; cases h

end Verif.Elf
