import Verif.Cpu.Z80.Reading
import Verif.Cpu.Z80.Decoded

/-!
# C57: the encodings of the Z80 and of the Game Boy
-/

namespace Verif.Cpu.Z80

open Verif.Parse (Tok Toks Tree)
open Verif.Expr (Src FMath ASym Den Rng BinOp I32 u32 toI32 meaning wrap value_bin)
open Verif.Cpu.X65 (ok_bind EndOfLine bytesAt le)

/-! ### The forms of the operands -/

theorem mem_rgs (r : Rg) : r ∈ Rg.all := by cases r <;> decide

theorem opv_shapes (e : E) (x : Opnd) : x.opv e ∈ shapes e := by
  unfold shapes
  refine List.mem_append.2 ?_
  cases x with
  | reg r => exact .inl (List.mem_map.2 ⟨r, mem_rgs r, rfl⟩)
  | idx x _ d => right; cases x <;> cases d <;> simp [Opnd.opv]
  | expr t => right; simp only [Opnd.opv]; cases paren t <;> simp
  | ind t => right; simp [Opnd.opv]
  | spDisp t => right; simp [Opnd.opv]

theorem opvs_lists {xs : List Opnd} (hl : xs.length ≤ 2) : opvs xs ∈ lists := by
  unfold lists
  match xs, hl with
  | [], _ => simp [opvs]
  | [x], _ =>
    refine List.mem_append_left _ (List.mem_cons_of_mem _ (List.mem_map.2 ⟨_, opv_shapes .a x, rfl⟩))
  | [x, y], _ =>
    exact List.mem_append_right _ (List.mem_flatMap.2 ⟨_, opv_shapes .a x, List.mem_map.2 ⟨_, opv_shapes .b y, rfl⟩⟩)

theorem opv_name (e : E) (x : Opnd) : (x.opv e).name = x.tree.map fun _ => e := by
  cases x with
  | expr t => simp only [Opnd.opv]; cases paren t <;> rfl
  | idx x s d => cases d <;> rfl
  | _ => rfl

theorem opv_signed (e : E) (x : Opnd) : (x.opv e).signed = if x.disp then x.tree.map fun _ => e else none := by
  cases x with
  | expr t => simp only [Opnd.opv]; cases paren t <;> rfl
  | idx x s d => cases d <;> rfl
  | _ => rfl

/-- The value of a displacement. -/
theorem disp_range {C : Ctx} {fm : FMath} {now : Nat → ASym} {ρ : Den} {x : Opnd} (hd : x.disp = true) {v : Int}
    (hv : x.value C fm now ρ = some v) : -128 ≤ v ∧ v ≤ 127 := by
  unfold Opnd.value at hv
  obtain ⟨t, _, hv⟩ := Option.bind_eq_some_iff.1 hv
  obtain ⟨w, _, hv⟩ := Option.bind_eq_some_iff.1 hv
  rw [hd, Bool.true_and] at hv
  split at hv
  · cases hv
  · rename_i h
    cases hv
    simpa using h

/-- The second name stands for nothing, or for the expression of the second operand. -/
theorem named_src (C : Ctx) (m : Mn) {xs : List Opnd} (hl : xs.length ≤ 2) (e : E) (h : namedOf (opvs xs) e = true) :
    (e.src (names C m xs).1 (names C m xs).2).isSome = true := by
  induction e with
  | zero => rfl
  | one => rfl
  | next e ih =>
    have := ih h
    unfold E.src
    rw [Option.isSome_map]
    exact this
  | a =>
    match xs, hl with
    | [], _ => cases h
    | [x], _ =>
      simp only [opvs, namedOf, List.any_cons, List.any_nil, Bool.or_false, decide_eq_true_eq, opv_name] at h
      show (x.src C).isSome = true
      unfold Opnd.src
      cases ht : x.tree with
      | none => rw [ht] at h; cases h
      | some t => rfl
    | [x, y], _ =>
      simp only [opvs, namedOf, List.map_cons, List.map_nil, List.any_cons, List.any_nil, Bool.or_false, Bool.or_eq_true,
        decide_eq_true_eq, opv_name] at h
      show (x.src C).isSome = true
      unfold Opnd.src
      cases ht : x.tree with
      | none =>
        rw [ht] at h
        rcases h with h | h
        · cases h
        · cases hy : y.tree with
          | none => rw [hy] at h; cases h
          | some t => rw [hy] at h; cases h
      | some t => rfl
  | b =>
    match xs, hl with
    | [], _ => cases h
    | [x], _ =>
      simp only [opvs, namedOf, List.any_cons, List.any_nil, Bool.or_false, decide_eq_true_eq, opv_name] at h
      cases ht : x.tree with
      | none => rw [ht] at h; cases h
      | some t => rw [ht] at h; cases h
    | [x, y], _ =>
      simp only [opvs, namedOf, List.map_cons, List.map_nil, List.any_cons, List.any_nil, Bool.or_false, Bool.or_eq_true,
        decide_eq_true_eq, opv_name] at h
      show (y.src C).isSome = true
      unfold Opnd.src
      cases ht : y.tree with
      | none =>
        rw [ht] at h
        rcases h with h | h
        · cases hy : x.tree with
          | none => rw [hy] at h; cases h
          | some t => rw [hy] at h; cases h
        · cases h
      | some t => rfl

/-- The value of the expression of the first, and of the second operand. -/
def firstValue (C : Ctx) (fm : FMath) (now : Nat → ASym) (ρ : Den) (xs : List Opnd) : Option Int :=
  xs.head?.bind (·.value C fm now ρ)
def secondValue (C : Ctx) (fm : FMath) (now : Nat → ASym) (ρ : Den) (xs : List Opnd) : Option Int :=
  (xs.drop 1).head?.bind (·.value C fm now ρ)

/-- The same with the names of the program. -/
def nameValue (C : Ctx) (m : Mn) (fm : FMath) (now : Nat → ASym) (ρ : Den) : List Opnd → Option Int
  | [x] => if implicit m (x.opv .a) then x.value C fm now ρ else none
  | xs => secondValue C fm now ρ xs

theorem values_ok (C : Ctx) (m : Mn) {xs : List Opnd} (hl : xs.length ≤ 2) (fm : FMath) (now : Nat → ASym) (ρ : Den) (p : Int) :
    Values fm now {ρ with pc := p} (opvs xs) (names C m xs).1 (names C m xs).2 (firstValue C fm now ρ xs)
      (nameValue C m fm now ρ xs) := by
  have hsv (x : Opnd) : ((x.src C).bind fun s => s.value fm wrap now {ρ with pc := p}) = x.value C fm now ρ := by
    rw [src_value, value_move]
  refine ⟨?_, ?_, fun e he => ?_⟩
  · match xs, hl with
    | [], _ => rfl
    | [x], _ => exact hsv x
    | [x, y], _ => exact hsv x
  · match xs, hl with
    | [], _ => rfl
    | [x], _ =>
      show ((if implicit m (x.opv .a) then x.src C else none).bind _) = if implicit m (x.opv .a) then _ else _
      cases implicit m (x.opv .a)
      · rfl
      · exact hsv x
    | [x, y], _ => exact hsv y
  · induction e with
    | zero => cases he
    | one => intro v hv; cases hv; decide
    | next e ih =>
      intro v hv
      unfold E.val at hv
      obtain ⟨w, _, hv⟩ := Option.bind_eq_some_iff.1 hv
      split at hv
      · cases hv; assumption
      · cases hv
    | a =>
      have sg (x : Opnd) (h : (x.opv .a).signed = some .a) : x.disp = true := by
        rw [opv_signed] at h
        cases hd : x.disp
        · rw [hd] at h; cases h
        · rfl
      have sb (x : Opnd) : (x.opv .b).signed ≠ some .a := by
        rw [opv_signed]
        cases x.disp <;> cases x.tree <;> simp
      match xs, hl with
      | [], _ => cases he
      | [x], _ =>
        simp only [opvs, signedOf, List.any_cons, List.any_nil, Bool.or_false, decide_eq_true_eq] at he
        exact fun v hv => disp_range (sg x he) hv
      | [x, y], _ =>
        simp only [opvs, signedOf, List.map_cons, List.map_nil, List.any_cons, List.any_nil, Bool.or_false, Bool.or_eq_true,
          decide_eq_true_eq] at he
        rcases he with he | he
        · exact fun v hv => disp_range (sg x he) hv
        · exact absurd he (sb y)
    | b =>
      have sg (x : Opnd) (h : (x.opv .b).signed = some .b) : x.disp = true := by
        rw [opv_signed] at h
        cases hd : x.disp
        · rw [hd] at h; cases h
        · rfl
      have sb (x : Opnd) : (x.opv .a).signed ≠ some .b := by
        rw [opv_signed]
        cases x.disp <;> cases x.tree <;> simp
      match xs, hl with
      | [], _ => cases he
      | [x], _ =>
        simp only [opvs, signedOf, List.any_cons, List.any_nil, Bool.or_false, decide_eq_true_eq] at he
        exact absurd he (sb x)
      | [x, y], _ =>
        simp only [opvs, signedOf, List.map_cons, List.map_nil, List.any_cons, List.any_nil, Bool.or_false, Bool.or_eq_true,
          decide_eq_true_eq] at he
        rcases he with he | he
        · exact absurd he (sb x)
        · exact fun v hv => disp_range (sg y he) hv

/-- What is not named does not matter. -/
theorem val_named {xs : List Opnd} (hl : xs.length ≤ 2) {va vb vb' : Option Int} (h2 : xs.length = 2 → vb = vb') (e : E)
    (h : namedOf (opvs xs) e = true) : e.val va vb = e.val va vb' := by
  induction e with
  | next e ih =>
    unfold E.val
    rw [ih h]
  | b =>
    match xs, hl with
    | [], _ => cases h
    | [x], _ =>
      simp only [opvs, namedOf, List.any_cons, List.any_nil, Bool.or_false, decide_eq_true_eq, opv_name] at h
      cases ht : x.tree with
      | none => rw [ht] at h; cases h
      | some t => rw [ht] at h; cases h
    | [x, y], _ => exact h2 rfl
  | _ => rfl

theorem slot_congr {xs : List Opv} {c : Call} {s : Slot E} (h : fits xs c s = true) {f g : E → Option Int}
    (hz : f .zero = g .zero) (hv : ∀ e, namedOf xs e = true → f e = g e) (pc : Int) : s.bytes f pc = s.bytes g pc := by
  have eq2 {e e' : E} (h : (e == e' && namedOf xs e) = true) : f e' = g e' := by
    obtain ⟨h1, h2⟩ := Bool.and_eq_true_iff.1 h
    rw [← eq_of_beq h1]
    exact hv e h2
  cases c with
  | const n => cases s with
    | byte k => rfl
    | s8 e => cases e with
      | zero => simp only [Slot.bytes, hz]
      | _ => simp [fits] at h
    | _ => cases h
  | plain e => cases s with
    | s8 e' => simp only [Slot.bytes, eq2 (Bool.and_eq_true_iff.1 h).1]
    | _ => cases h
  | bit n e => cases s with
    | bit k e' =>
      obtain ⟨h1, hnm⟩ := Bool.and_eq_true_iff.1 h
      obtain ⟨_, he⟩ := Bool.and_eq_true_iff.1 h1
      simp only [Slot.bytes, ← eq_of_beq he, hv e hnm]
    | _ => cases h
  | _ => cases s <;> first | cases h | simp only [Slot.bytes, eq2 h]

theorem slots_congr {xs : List Opv} {f g : E → Option Int} (hz : f .zero = g .zero)
    (hv : ∀ e, namedOf xs e = true → f e = g e) : ∀ {cs : List Call} {ss : List (Slot E)} (_ : fitsAll xs cs ss = true) (pc : Int),
      slotBytes f pc ss = slotBytes g pc ss
  | [], [], _, _ => rfl
  | c :: cs, s :: ss, h, pc => by
    obtain ⟨h1, h2⟩ := Bool.and_eq_true_iff.1 h
    unfold slotBytes
    rw [slot_congr h1 hz hv pc, slots_congr hz hv h2]
  | [], _ :: _, h, _ => by cases h
  | _ :: _, [], h, _ => by cases h

/-! ### What is known -/

theorem sem_first (cpu : Cpu) (F F' : Facts) (hn : F.num = F'.num) (ha : F.highA = F'.highA) (m : Mn) {x : Opv} (hx : x ∈ shapes .a) :
    sem cpu F m [x] = sem cpu F' m [x] := by
  by_cases hl : m.looks = false
  · rw [sem_facts cpu F m [x] (by simp) hl, sem_facts cpu F' m [x] (by simp) hl]
  by_cases hi : x.isInd = true
  · have : x = .ind .a := by
      cases x with
      | ind e => unfold shapes at hx; simp at hx; rw [hx]
      | _ => cases hi
    subst this
    cases m <;> first | exact absurd rfl hl | rfl | skip
    show some [if cpu = .gb && F.highA then _ else _] = some [if cpu = .gb && F'.highA then _ else _]
    rw [ha]
  · have hi : x.isInd = false := by simpa using hi
    have num (m : Mn) (hm : m = .rst ∨ m = .im) : sem cpu F m [x] = sem cpu F' m [x] := by
      cases x with
      | imm e =>
        rcases hm with rfl | rfl
        · unfold sem; rw [hn]
        · unfold sem; rw [hn]
      | reg y => rcases hm with rfl | rfl <;> cases y <;> rfl
      | idx i d => rcases hm with rfl | rfl <;> cases i <;> cases d <;> rfl
      | _ => rcases hm with rfl | rfl <;> rfl
    cases m with
    | ld =>
      show semLd cpu F (.reg .a) x = semLd cpu F' (.reg .a) x
      rw [semLd_facts cpu F (.reg .a) x rfl hi, semLd_facts cpu F' (.reg .a) x rfl hi]
    | rst => exact num .rst (.inl rfl)
    | im => exact num .im (.inr rfl)
    | out =>
      cases x with
      | reg y => cases y <;> rfl
      | idx i d => cases i <;> cases d <;> rfl
      | _ => rfl
    | _ => exact absurd rfl hl

theorem sem_known (C : Ctx) (m : Mn) {xs : List Opnd} (hl : xs.length ≤ 2) (cpu : Cpu) :
    sem cpu (facts C.known (names C m xs).1 (names C m xs).2) m (opvs xs) = sem cpu (known C xs) m (opvs xs) := by
  match xs, hl with
  | [], _ => rfl
  | [x], _ => exact sem_first cpu (facts C.known (names C m [x]).1 (names C m [x]).2) (known C [x]) rfl rfl m (opv_shapes .a x)
  | [x, y], _ => rfl

/-- What the handlers do for a line. -/
theorem line_good (C : Ctx) (o : Opts) (m : Mn) {xs : List Opnd} (hl : xs.length ≤ 2)
    (hk : ∀ s v, C.known s = some v → -2147483648 ≤ v ∧ v < 2147483648) (ho : odd o m (opvs xs) = false) :
    good o (facts C.known (names C m xs).1 (names C m xs).2) m (opvs xs) = true := by
  refine table o _ m (opvs xs) (fun v hv => ?_) (opvs_lists hl) ho
  obtain ⟨s, _, hs⟩ := Option.bind_eq_some_iff.1 (show ((names C m xs).1.bind C.known) = some v from hv)
  exact hk s v hs

theorem fits_length {xs : List Opv} : ∀ {cs : List Call} {ss : List (Slot E)}, fitsAll xs cs ss = true → ss.length = cs.length
  | [], [], _ => rfl
  | c :: cs, s :: ss, h => by
    simp only [List.length_cons]
    rw [fits_length (Bool.and_eq_true_iff.1 h).2]
  | [], _ :: _, h => by cases h
  | _ :: _, [], h => by cases h

/-- **C57.** A line becomes the bytes of the instructions that it means, with the values of its expressions. -/
theorem C57_encode (C : Ctx) (o : Opts) (m : Mn) (xs : List Opnd) (hl : xs.length ≤ 2) (hg : ∀ x ∈ xs, x.Good)
    (hk : ∀ s v, C.known s = some v → -2147483648 ≤ v ∧ v < 2147483648) {rest : Toks} (he : EndOfLine rest)
    {is : List (Instr E)} (hs : sem o.cpu (known C xs) m (opvs xs) = some is) (hlegal : legal o is = true)
    (ho : odd o m (opvs xs) = false) :
    ∃ its, instr C o (m.tok :: (line xs ++ rest)) = .ok (some (its, rest)) ∧
      ∀ (fm : FMath) (now : Nat → ASym) (ρ : Den), 0 ≤ ρ.pc → ρ.pc < 16777216 →
        bytesAt fm wrap now ρ its =
          slotBytes (E.val (firstValue C fm now ρ xs) (secondValue C fm now ρ xs)) ρ.pc (is.flatMap (·.slots o.cpu)) := by
  have hgood := line_good C o m hl hk ho
  unfold good at hgood
  rw [sem_known C m hl, hs] at hgood
  simp only [if_pos hlegal] at hgood
  split at hgood
  · rename_i cs hcs
    obtain ⟨hlen, hf⟩ := Bool.and_eq_true_iff.1 hgood
    have hlen : cs.length ≤ 16 := Nat.le_of_ble_eq_true hlen
    obtain ⟨its, hi, hb⟩ := fits_items (named_src C m hl) hf
    refine ⟨its, (instr_plan C o m xs hl hg he its).2 ?_, fun fm now ρ h0 h1 => ?_⟩
    · rw [hcs, ok_bind, hi]
    · have := fits_length hf
      rw [hb fm now ρ _ _ h0 (by omega) (values_ok C m hl fm now ρ)]
      refine slots_congr (f := E.val (firstValue C fm now ρ xs) (nameValue C m fm now ρ xs))
        (g := E.val (firstValue C fm now ρ xs) (secondValue C fm now ρ xs)) rfl (fun e he => ?_) hf ρ.pc
      refine val_named hl (fun h2 => ?_) e he
      match xs, h2 with
      | [x, y], _ => rfl
  · cases hgood

/-! ### The processor reads what is meant -/

/-- The bytes are these instructions, one behind the other. -/
def Runs (cpu : Cpu) : Int → List (Instr Int) → List Nat → Prop
  | _, [], bs => bs = []
  | pc, j :: js, bs => ∃ b rest, bs = b ++ rest ∧ decode cpu pc bs = some (j, rest) ∧ Runs cpu (pc + b.length) js rest

/-- The instructions with the numbers as the processor reads them. -/
def Bound {α : Type} (val : α → Option Int) : List (Instr α) → List (Instr Int) → Prop
  | [], [] => True
  | i :: is, j :: js => (∃ pc, i.bind (readAs val pc) = some j) ∧ Bound val is js
  | _, _ => False

theorem slot_size {α : Type} {val : α → Option Int} {pc : Int} {s : Slot α} {b : List Nat} (h : s.bytes val pc = some b) :
    b.length = s.size := by
  cases s <;> simp only [Slot.bytes] at h
  case byte => cases h; rfl
  all_goals
    obtain ⟨v, _, h⟩ := Option.bind_eq_some_iff.1 h
    split at h
    · cases h; rfl
    · cases h

theorem slots_append {α : Type} (val : α → Option Int) : ∀ (pc : Int) (xs ys : List (Slot α)) {bs : List Nat},
    slotBytes val pc (xs ++ ys) = some bs → ∃ b rest, bs = b ++ rest ∧ slotBytes val pc xs = some b ∧
      slotBytes val (pc + b.length) ys = some rest
  | pc, [], ys, bs, h => ⟨[], bs, rfl, rfl, by simpa using h⟩
  | pc, x :: xs, ys, bs, h => by
    rw [List.cons_append] at h
    unfold slotBytes at h
    obtain ⟨b, hb, h⟩ := Option.bind_eq_some_iff.1 h
    obtain ⟨c, hc, rfl⟩ := Option.map_eq_some_iff.1 h
    obtain ⟨d, rest, rfl, hd, hr⟩ := slots_append val _ xs ys hc
    refine ⟨b ++ d, rest, by rw [List.append_assoc], ?_, ?_⟩
    · unfold slotBytes
      rw [hb, Option.bind_some, hd]
      rfl
    · rw [List.length_append, slot_size hb]
      rw [← hr]
      congr 1
      omega

theorem runs_all {α : Type} (val : α → Option Int) (cpu : Cpu) : ∀ (is : List (Instr α)) (pc : Int) {bs : List Nat},
    (∀ i ∈ is, i.on cpu = true) → slotBytes val pc (is.flatMap (·.slots cpu)) = some bs →
      ∃ js, Bound val is js ∧ Runs cpu pc js bs
  | [], pc, bs, _, h => by
    cases h
    exact ⟨[], trivial, rfl⟩
  | i :: is, pc, bs, ho, h => by
    rw [List.flatMap_cons] at h
    obtain ⟨b, rest, rfl, hb, hr⟩ := slots_append val pc _ _ h
    obtain ⟨j, hj, hd⟩ := agrees val pc cpu i (ho i (by simp)) b rest hb
    obtain ⟨js, hjs, hrs⟩ := runs_all val cpu is _ (fun i hi => ho i (by simp [hi])) hr
    exact ⟨j :: js, ⟨⟨pc, hj⟩, hjs⟩, b, rest, rfl, hd, hrs⟩

/-- **C57.** The processor reads the instructions that are meant: the bytes of a line are decoded to them, with the values of
the expressions. -/
theorem C57_decode (C : Ctx) (o : Opts) (m : Mn) (xs : List Opnd) (hl : xs.length ≤ 2) (hg : ∀ x ∈ xs, x.Good)
    (hk : ∀ s v, C.known s = some v → -2147483648 ≤ v ∧ v < 2147483648) {rest : Toks} (he : EndOfLine rest)
    {is : List (Instr E)} (hs : sem o.cpu (known C xs) m (opvs xs) = some is) (hlegal : legal o is = true)
    (ho : odd o m (opvs xs) = false) :
    ∃ its, instr C o (m.tok :: (line xs ++ rest)) = .ok (some (its, rest)) ∧
      ∀ (fm : FMath) (now : Nat → ASym) (ρ : Den), 0 ≤ ρ.pc → ρ.pc < 16777216 →
        ∀ bs, bytesAt fm wrap now ρ its = some bs →
          ∃ js, Bound (E.val (firstValue C fm now ρ xs) (secondValue C fm now ρ xs)) is js ∧ Runs o.cpu ρ.pc js bs := by
  obtain ⟨its, hi, hb⟩ := C57_encode C o m xs hl hg hk he hs hlegal ho
  refine ⟨its, hi, fun fm now ρ h0 h1 bs h => ?_⟩
  rw [hb fm now ρ h0 h1] at h
  refine runs_all _ o.cpu is ρ.pc (fun i hi => ?_) h
  unfold legal at hlegal
  have := List.all_eq_true.1 (Bool.and_eq_true_iff.1 hlegal).1 i hi
  exact (Bool.and_eq_true_iff.1 this).1

/-! ### Lines that are refused -/

/-- **C57.** A line that means nothing, or that means instructions that the processor does not have, is refused. -/
theorem C57_refuse (C : Ctx) (o : Opts) (m : Mn) (xs : List Opnd) (hl : xs.length ≤ 2) (hg : ∀ x ∈ xs, x.Good)
    (hk : ∀ s v, C.known s = some v → -2147483648 ≤ v ∧ v < 2147483648) {rest : Toks} (he : EndOfLine rest)
    (hs : ∀ is, sem o.cpu (known C xs) m (opvs xs) = some is → legal o is = false) (ho : odd o m (opvs xs) = false)
    (its : List Item) : instr C o (m.tok :: (line xs ++ rest)) ≠ .ok (some (its, rest)) := by
  intro h
  have h := (instr_plan C o m xs hl hg he its).1 h
  have hgood := line_good C o m hl hk ho
  unfold good at hgood
  rw [sem_known C m hl] at hgood
  split at hgood
  · rename_i is hsem
    rw [if_neg (by rw [hs is hsem]; decide)] at hgood
    rw [of_decide_eq_true hgood] at h
    cases h
  · rw [of_decide_eq_true hgood] at h
    cases h

/-- A third operand is left in the line. -/
theorem C57_refuse_third (C : Ctx) (o : Opts) (m : Mn) (x y z : Opnd) (zs : List Opnd) (hx : x.Good) (hy : y.Good) {rest : Toks}
    (its : List Item) : instr C o (m.tok :: (line (x :: y :: z :: zs) ++ rest)) ≠ .ok (some (its, rest)) := by
  have fin {toks : Toks} (hne : toks.length ≠ rest.length) {α : Type} (x : Outcome α) (f : α → Outcome (List Item)) :
      (x.bind fun cs => (f cs).bind fun is => Outcome.ok (some (is, toks))) ≠ .ok (some (its, rest)) := by
    cases x with
    | ok a =>
      rw [ok_bind]
      cases f a with
      | ok i =>
        rw [ok_bind]
        intro h
        simp only [Outcome.ok.injEq, Option.some.injEq, Prod.mk.injEq] at h
        exact hne (congrArg _ h.2)
      | fail => exact fun h => (nomatch h)
      | ub => exact fun h => (nomatch h)
    | fail => exact fun h => (nomatch h)
    | ub => exact fun h => (nomatch h)
  rw [instr_entry]
  have ht : line (x :: y :: z :: zs) ++ rest = x.toks ++ .comma :: (y.toks ++ .comma :: (line (z :: zs) ++ rest)) := by
    simp [line]
  rw [ht]
  unfold operands
  by_cases h1 : m.entry.modes1 = 0
  · rw [if_pos h1, ok_bind]
    refine fin ?_ _ _
    simp only [List.length_append, List.length_cons]
    omega
  · rw [if_neg h1, addrMode_reads C o .a x hx (Ends.comma _)]
    by_cases hu : (x.opv .a).usable o = true
    · rw [if_pos hu, ok_bind]
      simp only
      rw [addrMode_reads C o .b y hy (Ends.comma _)]
      by_cases hv : (y.opv .b).usable o = true
      · rw [if_pos hv, ok_bind, ok_bind]
        refine fin ?_ _ _
        simp only [List.length_append, List.length_cons]
        omega
      · rw [if_neg hv]
        exact fun h => (nomatch h)
    · rw [if_neg hu]
      exact fun h => (nomatch h)

/-! ### Words -/

/-- The mnemonics as they are written. `LDIO` is `LDH`. -/
def Mn.word : Mn → String
  | .adc => "ADC" | .add => "ADD" | .and => "AND" | .bit => "BIT" | .call => "CALL" | .ccf => "CCF" | .cp => "CP" | .cpd => "CPD"
  | .cpdr => "CPDR" | .cpi => "CPI" | .cpir => "CPIR" | .cpl => "CPL" | .daa => "DAA" | .dec => "DEC" | .di => "DI"
  | .djnz => "DJNZ" | .ei => "EI" | .ex => "EX" | .exx => "EXX" | .halt => "HALT" | .im => "IM" | .in => "IN" | .inc => "INC"
  | .ind => "IND" | .indr => "INDR" | .ini => "INI" | .inir => "INIR" | .jp => "JP" | .jr => "JR" | .ld => "LD" | .ldd => "LDD"
  | .lddr => "LDDR" | .ldi => "LDI" | .ldir => "LDIR" | .ldh => "LDH" | .ldhl => "LDHL" | .neg => "NEG" | .nop => "NOP"
  | .or => "OR" | .otdr => "OTDR" | .otir => "OTIR" | .out => "OUT" | .outd => "OUTD" | .outi => "OUTI" | .pop => "POP"
  | .push => "PUSH" | .res => "RES" | .ret => "RET" | .reti => "RETI" | .retn => "RETN" | .rl => "RL" | .rla => "RLA"
  | .rlc => "RLC" | .rlca => "RLCA" | .rld => "RLD" | .rr => "RR" | .rra => "RRA" | .rrc => "RRC" | .rrca => "RRCA"
  | .rrd => "RRD" | .rst => "RST" | .sbc => "SBC" | .scf => "SCF" | .set => "SET" | .sla => "SLA" | .sll => "SLL" | .sra => "SRA"
  | .srl => "SRL" | .stop => "STOP" | .sub => "SUB" | .swap => "SWAP" | .xor => "XOR"

/-- The registers and conditions as they are written; `C` is both. -/
def Rg.words : Rg → List String
  | .b => ["B"] | .c => ["C"] | .d => ["D"] | .e => ["E"] | .h => ["H"] | .l => ["L"] | .hlInd => ["(HL)", "[HL]"] | .a => ["A"]
  | .ixh => ["IXH"] | .ixl => ["IXL"] | .iyh => ["IYH"] | .iyl => ["IYL"] | .bc => ["BC"] | .de => ["DE"] | .hl => ["HL"]
  | .sp => ["SP"] | .ix => ["IX"] | .iy => ["IY"] | .cInd => ["(C)", "[C]"] | .gbCInd => ["($FF00+C)", "[$FF00+C]"]
  | .spInd => ["(SP)", "[SP]"] | .bcInd => ["(BC)", "[BC]"] | .deInd => ["(DE)", "[DE]"] | .hlInc => ["(HL+)", "[HL+]"]
  | .hlDec => ["(HL-)", "[HL-]"] | .af => ["AF"] | .afAlt => ["AF'"] | .i => ["I"] | .r => ["R"] | .nz => ["NZ"] | .z => ["Z"]
  | .nc => ["NC"] | .po => ["PO"] | .pe => ["PE"] | .p => ["P"] | .m => ["M"]

/-- **C57.** The words are the tokens that the parser reads. -/
theorem C57_words : (∀ m : Mn, tok m.word = m.tok) ∧ tok "LDIO" = Mn.ldh.tok ∧ ∀ (x : Rg), ∀ w ∈ x.words, tok w = .other x.num := by
  refine ⟨fun m => ?_, by decide +kernel, fun x => ?_⟩
  · cases m <;> decide +kernel
  · cases x <;> decide +kernel

/-! ### Examples -/

/-- Constants are known, there is one name. -/
def C0 : Ctx where
  ids _ := 0
  here := 1
  known
    | .num v => if -2147483648 ≤ v ∧ v < 2147483648 then some v else none
    | _ => none

theorem C0_known : ∀ s v, C0.known s = some v → -2147483648 ≤ v ∧ v < 2147483648 := by
  intro s v h
  cases s <;> first | (cases h; done) | skip
  rename_i w
  have h : (if -2147483648 ≤ w ∧ w < 2147483648 then some w else none) = some v := h
  split at h
  · cases h; assumption
  · cases h

def z80 : Opts := ⟨.z80, false, false⟩
def gb : Opts := ⟨.gb, false, false⟩

theorem readable_num (n : Nat) (v : Int) : Readable n (.num v) := ⟨trivial, trivial, rfl, trivial, .inl trivial⟩
theorem readable_plus (n : Nat) (v : Int) : Readable n (.plus (.num v)) :=
  ⟨⟨by simp [Tree.level], trivial⟩, trivial, rfl, trivial, .inl trivial⟩
theorem readable_neg (n : Nat) (v : Int) : Readable n (.neg (.num v)) :=
  ⟨⟨by simp [Tree.level], trivial⟩, trivial, rfl, trivial, .inl trivial⟩

/-- `LD (IX+5),42`. -/
example : ∃ its, instr C0 z80 (Mn.ld.tok :: (line [.idx .ix false (some (.plus (.num 5))), .expr (.num 42)] ++ [])) =
    .ok (some (its, [])) ∧ ∀ (fm : FMath) (now : Nat → ASym) (ρ : Den), 0 ≤ ρ.pc → ρ.pc < 16777216 →
      bytesAt fm wrap now ρ its = some [0xDD, 0x36, 5, 42] := by
  have hs : sem Cpu.z80 (known C0 [.idx .ix false (some (.plus (.num 5))), .expr (.num 42)]) .ld
      (opvs [.idx .ix false (some (.plus (.num 5))), .expr (.num 42)]) = some [.ldImm (.idx .ix .a) .b] := rfl
  obtain ⟨its, h, hb⟩ := C57_encode C0 z80 .ld [.idx .ix false (some (.plus (.num 5))), .expr (.num 42)] (by simp)
    (by
      intro x hx
      rcases List.mem_cons.1 hx with rfl | hx
      · exact ⟨readable_plus 1 5, .inl rfl⟩
      · cases List.mem_singleton.1 hx
        exact ⟨readable_num 2 42, fun h => (nomatch h)⟩)
    C0_known (rest := []) (fun _ h => (nomatch h)) hs (by decide) (by decide)
  exact ⟨its, h, fun fm now ρ h0 h1 => (hb fm now ρ h0 h1).trans rfl⟩

example : decode .z80 0x1000 [0xDD, 0x36, 5, 42] = some (.ldImm (.idx .ix 5) 42, []) := by decide +kernel

/-- `LD A,($FF80)` is shorter on the Game Boy where the address is known. -/
example : instr C0 gb [tok "LD", tok "A", .comma, .other 91, .num 0xFF80, .other 93] =
    .ok (some ([.const 1 0xF0, .expr 1 (.bin .and (checkRange (.num 0xFF80) 0xFF00 0xFFFF) (.num 0xFF))], [])) := by decide +kernel

/-- `JR 0x1000` at 0x1010. -/
example : instr C0 gb [tok "JR", tok "NC", .comma, .num 0x1000] =
    .ok (some ([.const 1 0x30, .expr 1 (signed (.pcRel (-1) (.num 0x1000)))], [])) ∧
    decode .gb 0x1010 [0x30, 0xEE] = some (.jr (some .nc) 0x1000, []) := by decide +kernel

/-- `LD BC,HL` is two instructions, if that is allowed; `LD B,300` and `POP SP` are refused. -/
example : instr C0 {z80 with synth := true} [tok "LD", tok "BC", .comma, tok "HL"] =
      .ok (some ([.const 1 0x44, .const 1 0x4D], [])) ∧
    instr C0 z80 [tok "LD", tok "BC", .comma, tok "HL"] = .fail ∧ instr C0 z80 [tok "POP", tok "SP"] = .fail := by decide +kernel

end Verif.Cpu.Z80
