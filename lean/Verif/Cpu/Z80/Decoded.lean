import Verif.Cpu.Z80.Decode
/-!
# The encodings are those that the processors decode
-/
namespace Verif.Cpu.Z80

theorem sgn_mod {v : Int} (h : -128 ≤ v ∧ v ≤ 127) : sgn (v % 256).toNat = v := by
  unfold sgn
  split <;> omega

theorem byte_mod (v : Int) : (((v % 256).toNat : Nat) : Int) = v % 256 := by omega

theorem word_mod (v : Int) : ((v % 256).toNat : Int) + 256 * ((v / 256 % 256).toNat : Int) = v % 65536 := by omega

theorem word_eq {v : Int} (h : 0 ≤ v ∧ v ≤ 65535) : ((v % 256).toNat : Int) + 256 * ((v / 256).toNat : Int) = v := by omega

theorem high_eq {v : Int} (h : 0xFF00 ≤ v ∧ v ≤ 0xFFFF) : 0xFF00 + ((v - 0xFF00).toNat : Int) = v := by omega

theorem rel_eq {v pc : Int} (h : -128 ≤ v - (pc + 1 + 1) ∧ v - (pc + 1 + 1) ≤ 127) :
    pc + 2 + sgn ((v - (pc + 1 + 1)) % 256).toNat = v := by
  rw [sgn_mod h]
  omega

theorem eight {v : Int} (h : 0 ≤ v ∧ v ≤ 7) : v = 0 ∨ v = 1 ∨ v = 2 ∨ v = 3 ∨ v = 4 ∨ v = 5 ∨ v = 6 ∨ v = 7 := by omega

/-- The value of a number, as the processor reads it. -/
def readAs {α : Type} (val : α → Option Int) (pc : Int) (k : Kind) (e : α) : Option Int := (val e).bind (k.read pc)

section
variable {α : Type} (val : α → Option Int) (pc : Int)

theorem bytes_byte (n : Nat) : Slot.bytes val pc (.byte n) = some [n] := rfl

theorem bytes_s8 {e : α} {b : List Nat} (p : Int) (h : Slot.bytes val p (.s8 e) = some b) :
    ∃ v, b = [v] ∧ readAs val pc .s8 e = some (sgn v) := by
  unfold Slot.bytes at h
  obtain ⟨v, hv, h⟩ := Option.bind_eq_some_iff.1 h
  split at h
  · rename_i hr
    refine ⟨_, (Option.some.inj h).symm, ?_⟩
    unfold readAs Kind.read
    rw [hv, Option.bind_some]
    show (if _ then _ else _) = _
    rw [if_pos hr, sgn_mod hr]
  · cases h

theorem bytes_n8 {e : α} {b : List Nat} (p : Int) (h : Slot.bytes val p (.n8 e) = some b) :
    ∃ v : Nat, b = [v] ∧ readAs val pc .n8 e = some (v : Int) := by
  unfold Slot.bytes at h
  obtain ⟨v, hv, h⟩ := Option.bind_eq_some_iff.1 h
  split at h
  · rename_i hr
    refine ⟨_, (Option.some.inj h).symm, ?_⟩
    unfold readAs Kind.read
    rw [hv, Option.bind_some]
    show (if _ then _ else _) = _
    rw [if_pos hr, byte_mod]
  · cases h

theorem bytes_p8 {e : α} {b : List Nat} (p : Int) (h : Slot.bytes val p (.p8 e) = some b) :
    ∃ v : Nat, b = [v] ∧ readAs val pc .p8 e = some (v : Int) := by
  unfold Slot.bytes at h
  obtain ⟨v, hv, h⟩ := Option.bind_eq_some_iff.1 h
  split at h
  · rename_i hr
    refine ⟨_, (Option.some.inj h).symm, ?_⟩
    unfold readAs Kind.read
    rw [hv, Option.bind_some]
    show (if _ then _ else _) = _
    rw [if_pos hr, Int.toNat_of_nonneg hr.1]
  · cases h

theorem bytes_n16 {e : α} {b : List Nat} (p : Int) (h : Slot.bytes val p (.n16 e) = some b) :
    ∃ l u : Nat, b = [l, u] ∧ readAs val pc .n16 e = some ((l : Int) + 256 * (u : Int)) := by
  unfold Slot.bytes at h
  obtain ⟨v, hv, h⟩ := Option.bind_eq_some_iff.1 h
  split at h
  · rename_i hr
    refine ⟨_, _, (Option.some.inj h).symm, ?_⟩
    unfold readAs Kind.read
    rw [hv, Option.bind_some]
    show (if _ then _ else _) = _
    rw [if_pos hr, word_mod]
  · cases h

theorem bytes_a16 {e : α} {b : List Nat} (p : Int) (h : Slot.bytes val p (.a16 e) = some b) :
    ∃ l u : Nat, b = [l, u] ∧ readAs val pc .a16 e = some ((l : Int) + 256 * (u : Int)) := by
  unfold Slot.bytes at h
  obtain ⟨v, hv, h⟩ := Option.bind_eq_some_iff.1 h
  split at h
  · rename_i hr
    refine ⟨_, _, (Option.some.inj h).symm, ?_⟩
    unfold readAs Kind.read
    rw [hv, Option.bind_some]
    show (if _ then _ else _) = _
    rw [if_pos hr, word_eq hr]
  · cases h

theorem bytes_rel {e : α} {b : List Nat} (h : Slot.bytes val (pc + 1) (.rel e) = some b) :
    ∃ v : Nat, b = [v] ∧ readAs val pc .rel e = some (pc + 2 + sgn v) := by
  unfold Slot.bytes at h
  obtain ⟨v, hv, h⟩ := Option.bind_eq_some_iff.1 h
  split at h
  · rename_i hr
    refine ⟨_, (Option.some.inj h).symm, ?_⟩
    unfold readAs Kind.read
    rw [hv, Option.bind_some]
    show (if _ then _ else _) = _
    rw [if_pos (by omega), rel_eq hr]
  · cases h

theorem bytes_hi {e : α} {b : List Nat} (p : Int) (h : Slot.bytes val p (.hi e) = some b) :
    ∃ v : Nat, b = [v] ∧ readAs val pc .hi e = some (0xFF00 + (v : Int)) := by
  unfold Slot.bytes at h
  obtain ⟨v, hv, h⟩ := Option.bind_eq_some_iff.1 h
  split at h
  · rename_i hr
    refine ⟨_, (Option.some.inj h).symm, ?_⟩
    unfold readAs Kind.read
    rw [hv, Option.bind_some]
    show (if _ then _ else _) = _
    rw [if_pos hr, high_eq hr]
  · cases h

theorem bytes_bit {op : Nat} {e : α} {b : List Nat} (p : Int) (h : Slot.bytes val p (.bit op e) = some b) :
    ∃ v : Nat, v < 8 ∧ b = [op + 8 * v] ∧ readAs val pc .bit e = some (v : Int) := by
  unfold Slot.bytes at h
  obtain ⟨v, hv, h⟩ := Option.bind_eq_some_iff.1 h
  split at h
  · rename_i hr
    refine ⟨v.toNat, by omega, (Option.some.inj h).symm, ?_⟩
    unfold readAs Kind.read
    rw [hv, Option.bind_some]
    show (if _ then _ else _) = _
    rw [if_pos hr, Int.toNat_of_nonneg hr.1]
  · cases h

theorem slots_cons {s : Slot α} {ss : List (Slot α)} {bs : List Nat} (h : slotBytes val pc (s :: ss) = some bs) :
    ∃ b c, s.bytes val pc = some b ∧ slotBytes val (pc + s.size) ss = some c ∧ bs = b ++ c := by
  unfold slotBytes at h
  obtain ⟨b, hb, h⟩ := Option.bind_eq_some_iff.1 h
  obtain ⟨c, hc, h⟩ := Option.map_eq_some_iff.1 h
  exact ⟨b, c, hb, hc, h.symm⟩

theorem slots_byte {n : Nat} {ss : List (Slot α)} {bs : List Nat} (h : slotBytes val pc (.byte n :: ss) = some bs) :
    ∃ c, slotBytes val (pc + 1) ss = some c ∧ bs = n :: c := by
  obtain ⟨b, c, hb, hc, rfl⟩ := slots_cons val pc h
  cases Option.some.inj hb
  exact ⟨c, hc, rfl⟩

theorem slots_nil {bs : List Nat} (h : slotBytes val pc ([] : List (Slot α)) = some bs) : bs = [] := (Option.some.inj h).symm

theorem slots_s8 {e : α} {ss : List (Slot α)} {bs : List Nat} (p : Int) (h : slotBytes val p (.s8 e :: ss) = some bs) :
    ∃ v c, slotBytes val (p + 1) ss = some c ∧ bs = v :: c ∧ readAs val pc .s8 e = some (sgn v) := by
  obtain ⟨b, c, hb, hc, rfl⟩ := slots_cons val p h
  obtain ⟨v, rfl, hv⟩ := bytes_s8 val pc p hb
  exact ⟨v, c, hc, rfl, hv⟩

theorem slots_n8 {e : α} {bs : List Nat} (p : Int) (h : slotBytes val p [.n8 e] = some bs) :
    ∃ v : Nat, bs = [v] ∧ readAs val pc .n8 e = some (v : Int) := by
  obtain ⟨b, c, hb, hc, rfl⟩ := slots_cons val p h
  obtain ⟨v, rfl, hv⟩ := bytes_n8 val pc p hb
  cases slots_nil val _ hc
  exact ⟨v, rfl, hv⟩

theorem slots_p8 {e : α} {bs : List Nat} (p : Int) (h : slotBytes val p [.p8 e] = some bs) :
    ∃ v : Nat, bs = [v] ∧ readAs val pc .p8 e = some (v : Int) := by
  obtain ⟨b, c, hb, hc, rfl⟩ := slots_cons val p h
  obtain ⟨v, rfl, hv⟩ := bytes_p8 val pc p hb
  cases slots_nil val _ hc
  exact ⟨v, rfl, hv⟩

theorem slots_n16 {e : α} {bs : List Nat} (p : Int) (h : slotBytes val p [.n16 e] = some bs) :
    ∃ l u : Nat, bs = [l, u] ∧ readAs val pc .n16 e = some ((l : Int) + 256 * (u : Int)) := by
  obtain ⟨b, c, hb, hc, rfl⟩ := slots_cons val p h
  obtain ⟨l, u, rfl, hv⟩ := bytes_n16 val pc p hb
  cases slots_nil val _ hc
  exact ⟨l, u, rfl, hv⟩

theorem slots_a16 {e : α} {bs : List Nat} (p : Int) (h : slotBytes val p [.a16 e] = some bs) :
    ∃ l u : Nat, bs = [l, u] ∧ readAs val pc .a16 e = some ((l : Int) + 256 * (u : Int)) := by
  obtain ⟨b, c, hb, hc, rfl⟩ := slots_cons val p h
  obtain ⟨l, u, rfl, hv⟩ := bytes_a16 val pc p hb
  cases slots_nil val _ hc
  exact ⟨l, u, rfl, hv⟩

theorem slots_rel {e : α} {bs : List Nat} (h : slotBytes val (pc + 1) [.rel e] = some bs) :
    ∃ v : Nat, bs = [v] ∧ readAs val pc .rel e = some (pc + 2 + sgn v) := by
  obtain ⟨b, c, hb, hc, rfl⟩ := slots_cons val _ h
  obtain ⟨v, rfl, hv⟩ := bytes_rel val pc hb
  cases slots_nil val _ hc
  exact ⟨v, rfl, hv⟩

theorem slots_hi {e : α} {bs : List Nat} (p : Int) (h : slotBytes val p [.hi e] = some bs) :
    ∃ v : Nat, bs = [v] ∧ readAs val pc .hi e = some (0xFF00 + (v : Int)) := by
  obtain ⟨b, c, hb, hc, rfl⟩ := slots_cons val p h
  obtain ⟨v, rfl, hv⟩ := bytes_hi val pc p hb
  cases slots_nil val _ hc
  exact ⟨v, rfl, hv⟩

theorem slots_bit {op : Nat} {e : α} {bs : List Nat} (p : Int) (h : slotBytes val p [.bit op e] = some bs) :
    ∃ v : Nat, v < 8 ∧ bs = [op + 8 * v] ∧ readAs val pc .bit e = some (v : Int) := by
  obtain ⟨b, c, hb, hc, rfl⟩ := slots_cons val p h
  obtain ⟨v, hl, rfl, hv⟩ := bytes_bit val pc p hb
  cases slots_nil val _ hc
  exact ⟨v, hl, rfl, hv⟩

/-- What the processor decodes from the bytes of an instruction. -/
def Agrees (cpu : Cpu) (i : Instr α) : Prop :=
  ∀ bs rest, slotBytes val pc (i.slots cpu) = some bs →
    ∃ j, i.bind (readAs val pc) = some j ∧ decode cpu pc (bs ++ rest) = some (j, rest)

theorem agrees_ld (cpu : Cpu) (x y : Loc α) (h : (Instr.ld x y).on cpu = true) : Agrees val pc cpu (.ld x y) := by
  intro bs rest hb
  cases x with
  | reg r => cases y with
    | reg q =>
      obtain ⟨c1, b1, rfl⟩ := slots_byte val pc hb
      cases slots_nil val _ b1
      refine ⟨.ld (.reg r) (.reg q), rfl, ?_⟩
      simp only [Loc.code]
      cases r <;> cases q <;> rfl
    | hl =>
      obtain ⟨c1, b1, rfl⟩ := slots_byte val pc hb
      cases slots_nil val _ b1
      cases r <;> exact ⟨_, rfl, by simp only [Loc.code]; rfl⟩
    | half q u =>
      obtain ⟨c1, b1, rfl⟩ := slots_byte val pc hb
      obtain ⟨c2, b2, rfl⟩ := slots_byte val _ b1
      cases slots_nil val _ b2
      cases cpu <;> cases r <;> cases q <;> cases u <;> first | (refine ⟨_, rfl, ?_⟩; simp only [Loc.code]; rfl) | simp [Instr.on, ldOk, Loc.on] at h
    | idx q d =>
      obtain ⟨c1, b1, rfl⟩ := slots_byte val pc hb
      obtain ⟨c2, b2, rfl⟩ := slots_byte val _ b1
      obtain ⟨v, c3, b3, rfl, hv⟩ := slots_s8 val pc _ b2
      cases slots_nil val _ b3
      cases cpu
      · exact absurd h (by simp [Instr.on, ldOk, Loc.on])
      · refine ⟨.ld (.reg r) (.idx q (sgn v)), ?_, ?_⟩
        · simp [Instr.bind, Loc.bind, hv]
        · simp only [Loc.code]
          cases r <;> cases q <;> rfl
  | hl => cases y with
    | reg q =>
      obtain ⟨c1, b1, rfl⟩ := slots_byte val pc hb
      cases slots_nil val _ b1
      cases q <;> exact ⟨_, rfl, by simp only [Loc.code]; rfl⟩
    | _ => exact absurd h (by simp [Instr.on, ldOk])
  | half r u => cases y with
    | reg q =>
      obtain ⟨c1, b1, rfl⟩ := slots_byte val pc hb
      obtain ⟨c2, b2, rfl⟩ := slots_byte val _ b1
      cases slots_nil val _ b2
      cases cpu <;> cases r <;> cases q <;> cases u <;> first | (refine ⟨_, rfl, ?_⟩; simp only [Loc.code]; rfl) | simp [Instr.on, ldOk, Loc.on] at h
    | half q w =>
      obtain ⟨c1, b1, rfl⟩ := slots_byte val pc hb
      obtain ⟨c2, b2, rfl⟩ := slots_byte val _ b1
      cases slots_nil val _ b2
      cases cpu <;> cases r <;> cases q <;> cases u <;> cases w <;>
        first | (refine ⟨_, rfl, ?_⟩; simp only [Loc.code]; rfl) | simp [Instr.on, ldOk, Loc.on] at h
    | _ => exact absurd h (by simp [Instr.on, ldOk])
  | idx q d => cases y with
    | reg r =>
      obtain ⟨c1, b1, rfl⟩ := slots_byte val pc hb
      obtain ⟨c2, b2, rfl⟩ := slots_byte val _ b1
      obtain ⟨v, c3, b3, rfl, hv⟩ := slots_s8 val pc _ b2
      cases slots_nil val _ b3
      cases cpu
      · exact absurd h (by simp [Instr.on, ldOk, Loc.on])
      · refine ⟨.ld (.idx q (sgn v)) (.reg r), ?_, ?_⟩
        · simp [Instr.bind, Loc.bind, hv]
        · simp only [Loc.code]
          cases r <;> cases q <;> rfl
    | _ => exact absurd h (by simp [Instr.on, ldOk])

theorem agrees_ldImm (cpu : Cpu) (x : Loc α) (n : α) (h : (Instr.ldImm x n).on cpu = true) : Agrees val pc cpu (.ldImm x n) := by
  intro bs rest hb
  cases x with
  | reg r =>
    obtain ⟨c1, b1, rfl⟩ := slots_byte val pc hb
    obtain ⟨v, rfl, hv⟩ := slots_n8 val pc _ b1
    refine ⟨.ldImm (.reg r) v, ?_, ?_⟩
    · simp [Instr.bind, Loc.bind, hv]
    · simp only [Loc.code]
      cases r <;> rfl
  | hl =>
    obtain ⟨c1, b1, rfl⟩ := slots_byte val pc hb
    obtain ⟨v, rfl, hv⟩ := slots_n8 val pc _ b1
    refine ⟨.ldImm .hl v, ?_, by simp only [Loc.code]; rfl⟩
    simp [Instr.bind, Loc.bind, hv]
  | half q u =>
    obtain ⟨c1, b1, rfl⟩ := slots_byte val pc hb
    obtain ⟨c2, b2, rfl⟩ := slots_byte val _ b1
    obtain ⟨v, rfl, hv⟩ := slots_n8 val pc _ b2
    cases cpu
    · exact absurd h (by simp [Instr.on, Loc.on])
    refine ⟨.ldImm (.half q u) v, ?_, ?_⟩
    · simp [Instr.bind, Loc.bind, hv]
    · simp only [Loc.code]
      cases q <;> cases u <;> rfl
  | idx q d =>
    obtain ⟨c1, b1, rfl⟩ := slots_byte val pc hb
    obtain ⟨c2, b2, rfl⟩ := slots_byte val _ b1
    obtain ⟨w, c3, b3, rfl, hw⟩ := slots_s8 val pc _ b2
    obtain ⟨v, rfl, hv⟩ := slots_n8 val pc _ b3
    cases cpu
    · exact absurd h (by simp [Instr.on, Loc.on])
    refine ⟨.ldImm (.idx q (sgn w)) v, ?_, ?_⟩
    · simp [Instr.bind, Loc.bind, hv, hw]
    · simp only [Loc.code]
      cases q <;> rfl

/-- Instructions with a place. -/
theorem agrees_place (cpu : Cpu) (f : {β : Type} → Loc β → Instr β) (op : Nat → Nat) (l : Loc α) (hon : l.on cpu = true)
    (hs : (f l).slots cpu = l.pre ++ .byte (op l.code) :: l.disp)
    (hb : (f l).bind (readAs val pc) = (l.bind (readAs val pc .s8)).map f)
    (hr : ∀ r rest, decode cpu pc (op (R8.code r) :: rest) = some (f (.reg r), rest))
    (hh : ∀ rest, decode cpu pc (op 6 :: rest) = some (f .hl, rest))
    (hu : ∀ x u rest, cpu = .z80 → decode cpu pc (Ix.pre x :: op (if u = true then 4 else 5) :: rest) = some (f (.half x u), rest))
    (hi : ∀ x d rest, cpu = .z80 → decode cpu pc (Ix.pre x :: op 6 :: d :: rest) = some (f (.idx x (sgn d)), rest)) :
    Agrees val pc cpu (f l) := by
  intro bs rest hbs
  rw [hs] at hbs
  rw [hb]
  cases l with
  | reg r =>
    obtain ⟨c1, b1, rfl⟩ := slots_byte val pc hbs
    cases slots_nil val _ b1
    exact ⟨_, rfl, hr r rest⟩
  | hl =>
    obtain ⟨c1, b1, rfl⟩ := slots_byte val pc hbs
    cases slots_nil val _ b1
    exact ⟨_, rfl, hh rest⟩
  | half x u =>
    obtain ⟨c1, b1, rfl⟩ := slots_byte val pc hbs
    obtain ⟨c2, b2, rfl⟩ := slots_byte val _ b1
    cases slots_nil val _ b2
    exact ⟨_, rfl, hu x u rest (by simpa [Loc.on] using hon)⟩
  | idx x d =>
    obtain ⟨c1, b1, rfl⟩ := slots_byte val pc hbs
    obtain ⟨c2, b2, rfl⟩ := slots_byte val _ b1
    obtain ⟨w, c3, b3, rfl, hw⟩ := slots_s8 val pc _ b2
    cases slots_nil val _ b3
    refine ⟨f (.idx x (sgn w)), ?_, hi x w rest (by simpa [Loc.on] using hon)⟩
    simp [Loc.bind, hw]

theorem agrees_alu (cpu : Cpu) (op : Alu) (l : Loc α) (h : l.on cpu = true) : Agrees val pc cpu (.alu op l) := by
  refine agrees_place val pc cpu (fun l => .alu op l) (fun n => 0x80 + 8 * op.code + n) l h rfl rfl ?_ ?_ ?_ ?_
  · intro r rest
    cases cpu <;> cases op <;> cases r <;> rfl
  · intro rest
    cases cpu <;> cases op <;> rfl
  · rintro x u rest rfl
    cases x <;> cases u <;> cases op <;> rfl
  · rintro x d rest rfl
    cases x <;> cases op <;> rfl

theorem agrees_inc (cpu : Cpu) (l : Loc α) (h : l.on cpu = true) : Agrees val pc cpu (.inc l) := by
  refine agrees_place val pc cpu (fun l => .inc l) (fun n => 0x04 + 8 * n) l h rfl rfl ?_ ?_ ?_ ?_
  · intro r rest
    cases cpu <;> cases r <;> rfl
  · intro rest
    cases cpu <;> rfl
  · rintro x u rest rfl
    cases x <;> cases u <;> rfl
  · rintro x d rest rfl
    cases x <;> rfl

theorem agrees_dec (cpu : Cpu) (l : Loc α) (h : l.on cpu = true) : Agrees val pc cpu (.dec l) := by
  refine agrees_place val pc cpu (fun l => .dec l) (fun n => 0x05 + 8 * n) l h rfl rfl ?_ ?_ ?_ ?_
  · intro r rest
    cases cpu <;> cases r <;> rfl
  · intro rest
    cases cpu <;> rfl
  · rintro x u rest rfl
    cases x <;> cases u <;> rfl
  · rintro x d rest rfl
    cases x <;> rfl

theorem agrees_rot (cpu : Cpu) (op : Rot) (l : Loc α) (h : (Instr.rot op l).on cpu = true) : Agrees val pc cpu (.rot op l) := by
  intro bs rest hb
  cases l with
  | reg r =>
    obtain ⟨c1, b1, rfl⟩ := slots_byte val pc hb
    obtain ⟨c2, b2, rfl⟩ := slots_byte val _ b1
    cases slots_nil val _ b2
    refine ⟨.rot op (.reg r), rfl, ?_⟩
    simp only [Loc.code]
    cases cpu <;> cases op <;> first | (cases r <;> rfl) | simp [Instr.on] at h
  | hl =>
    obtain ⟨c1, b1, rfl⟩ := slots_byte val pc hb
    obtain ⟨c2, b2, rfl⟩ := slots_byte val _ b1
    cases slots_nil val _ b2
    refine ⟨.rot op .hl, rfl, ?_⟩
    simp only [Loc.code]
    cases cpu <;> cases op <;> first | rfl | simp [Instr.on] at h
  | half x u => exact absurd h (by simp [Instr.on, Loc.whole])
  | idx x d =>
    obtain ⟨c1, b1, rfl⟩ := slots_byte val pc hb
    obtain ⟨c2, b2, rfl⟩ := slots_byte val _ b1
    obtain ⟨w, c3, b3, rfl, hw⟩ := slots_s8 val pc _ b2
    obtain ⟨c4, b4, rfl⟩ := slots_byte val _ b3
    cases slots_nil val _ b4
    refine ⟨.rot op (.idx x (sgn w)), ?_, ?_⟩
    · simp [Instr.bind, Loc.bind, hw]
    · simp only [Loc.code]
      cases cpu <;> cases op <;> first | (cases x <;> rfl) | simp [Instr.on, Loc.on] at h

theorem lt_eight {v : Nat} (h : v < 8) : v = 0 ∨ v = 1 ∨ v = 2 ∨ v = 3 ∨ v = 4 ∨ v = 5 ∨ v = 6 ∨ v = 7 := by omega

theorem agrees_bit (cpu : Cpu) (op : BitOp) (n : α) (l : Loc α) (h : (Instr.bit op n l).on cpu = true) :
    Agrees val pc cpu (.bit op n l) := by
  intro bs rest hb
  cases l with
  | reg r =>
    obtain ⟨c1, b1, rfl⟩ := slots_byte val pc hb
    obtain ⟨v, hl, rfl, hv⟩ := slots_bit val pc _ b1
    refine ⟨.bit op v (.reg r), ?_, ?_⟩
    · simp [Instr.bind, Loc.bind, hv]
    · simp only [Loc.code]
      rcases lt_eight hl with h | h | h | h | h | h | h | h <;> subst h <;> cases cpu <;> cases op <;> cases r <;> rfl
  | hl =>
    obtain ⟨c1, b1, rfl⟩ := slots_byte val pc hb
    obtain ⟨v, hl, rfl, hv⟩ := slots_bit val pc _ b1
    refine ⟨.bit op v .hl, ?_, ?_⟩
    · simp [Instr.bind, Loc.bind, hv]
    · simp only [Loc.code]
      rcases lt_eight hl with h | h | h | h | h | h | h | h <;> subst h <;> cases cpu <;> cases op <;> rfl
  | half x u => exact absurd h (by simp [Instr.on, Loc.whole])
  | idx x d =>
    obtain ⟨c1, b1, rfl⟩ := slots_byte val pc hb
    obtain ⟨c2, b2, rfl⟩ := slots_byte val _ b1
    obtain ⟨w, c3, b3, rfl, hw⟩ := slots_s8 val pc _ b2
    obtain ⟨v, hl, rfl, hv⟩ := slots_bit val pc _ b3
    cases cpu
    · exact absurd h (by simp [Instr.on, Loc.on])
    refine ⟨.bit op v (.idx x (sgn w)), ?_, ?_⟩
    · simp [Instr.bind, Loc.bind, hw, hv]
    · simp only [Loc.code]
      rcases lt_eight hl with h | h | h | h | h | h | h | h <;> subst h <;> cases op <;> cases x <;> rfl

theorem agrees_ldAPtr (cpu : Cpu) (p : Ptr) (h : (Instr.ldAPtr p : Instr α).on cpu = true) :
    Agrees val pc cpu (.ldAPtr p) := by
  intro bs rest hb
  cases cpu <;> cases p <;>
  first
  | (obtain ⟨c1, b1, rfl⟩ := slots_byte val pc hb
     cases slots_nil val _ b1
     exact ⟨_, rfl, rfl⟩)
  | (obtain ⟨c1, b1, rfl⟩ := slots_byte val pc hb
     obtain ⟨c2, b2, rfl⟩ := slots_byte val _ b1
     cases slots_nil val _ b2
     exact ⟨_, rfl, rfl⟩)
  | (simp [Instr.on, P16.on, P16.hlLike, Cc.on, Imp.on] at h)

theorem agrees_stAPtr (cpu : Cpu) (p : Ptr) (h : (Instr.stAPtr p : Instr α).on cpu = true) :
    Agrees val pc cpu (.stAPtr p) := by
  intro bs rest hb
  cases cpu <;> cases p <;>
  first
  | (obtain ⟨c1, b1, rfl⟩ := slots_byte val pc hb
     cases slots_nil val _ b1
     exact ⟨_, rfl, rfl⟩)
  | (obtain ⟨c1, b1, rfl⟩ := slots_byte val pc hb
     obtain ⟨c2, b2, rfl⟩ := slots_byte val _ b1
     cases slots_nil val _ b2
     exact ⟨_, rfl, rfl⟩)
  | (simp [Instr.on, P16.on, P16.hlLike, Cc.on, Imp.on] at h)

theorem agrees_ldAC (cpu : Cpu) (h : (Instr.ldAC : Instr α).on cpu = true) :
    Agrees val pc cpu (.ldAC) := by
  intro bs rest hb
  cases cpu <;>
  first
  | (obtain ⟨c1, b1, rfl⟩ := slots_byte val pc hb
     cases slots_nil val _ b1
     exact ⟨_, rfl, rfl⟩)
  | (obtain ⟨c1, b1, rfl⟩ := slots_byte val pc hb
     obtain ⟨c2, b2, rfl⟩ := slots_byte val _ b1
     cases slots_nil val _ b2
     exact ⟨_, rfl, rfl⟩)
  | (simp [Instr.on, P16.on, P16.hlLike, Cc.on, Imp.on] at h)

theorem agrees_stAC (cpu : Cpu) (h : (Instr.stAC : Instr α).on cpu = true) :
    Agrees val pc cpu (.stAC) := by
  intro bs rest hb
  cases cpu <;>
  first
  | (obtain ⟨c1, b1, rfl⟩ := slots_byte val pc hb
     cases slots_nil val _ b1
     exact ⟨_, rfl, rfl⟩)
  | (obtain ⟨c1, b1, rfl⟩ := slots_byte val pc hb
     obtain ⟨c2, b2, rfl⟩ := slots_byte val _ b1
     cases slots_nil val _ b2
     exact ⟨_, rfl, rfl⟩)
  | (simp [Instr.on, P16.on, P16.hlLike, Cc.on, Imp.on] at h)

theorem agrees_ldSp (cpu : Cpu) (p : P16) (h : (Instr.ldSp p : Instr α).on cpu = true) :
    Agrees val pc cpu (.ldSp p) := by
  intro bs rest hb
  cases cpu <;> cases p <;>
  first
  | (obtain ⟨c1, b1, rfl⟩ := slots_byte val pc hb
     cases slots_nil val _ b1
     exact ⟨_, rfl, rfl⟩)
  | (obtain ⟨c1, b1, rfl⟩ := slots_byte val pc hb
     obtain ⟨c2, b2, rfl⟩ := slots_byte val _ b1
     cases slots_nil val _ b2
     exact ⟨_, rfl, rfl⟩)
  | (simp [Instr.on, P16.on, P16.hlLike, Cc.on, Imp.on] at h)

theorem agrees_ldAI (cpu : Cpu) (h : (Instr.ldAI : Instr α).on cpu = true) :
    Agrees val pc cpu (.ldAI) := by
  intro bs rest hb
  cases cpu <;>
  first
  | (obtain ⟨c1, b1, rfl⟩ := slots_byte val pc hb
     cases slots_nil val _ b1
     exact ⟨_, rfl, rfl⟩)
  | (obtain ⟨c1, b1, rfl⟩ := slots_byte val pc hb
     obtain ⟨c2, b2, rfl⟩ := slots_byte val _ b1
     cases slots_nil val _ b2
     exact ⟨_, rfl, rfl⟩)
  | (simp [Instr.on, P16.on, P16.hlLike, Cc.on, Imp.on] at h)

theorem agrees_ldAR (cpu : Cpu) (h : (Instr.ldAR : Instr α).on cpu = true) :
    Agrees val pc cpu (.ldAR) := by
  intro bs rest hb
  cases cpu <;>
  first
  | (obtain ⟨c1, b1, rfl⟩ := slots_byte val pc hb
     cases slots_nil val _ b1
     exact ⟨_, rfl, rfl⟩)
  | (obtain ⟨c1, b1, rfl⟩ := slots_byte val pc hb
     obtain ⟨c2, b2, rfl⟩ := slots_byte val _ b1
     cases slots_nil val _ b2
     exact ⟨_, rfl, rfl⟩)
  | (simp [Instr.on, P16.on, P16.hlLike, Cc.on, Imp.on] at h)

theorem agrees_ldIA (cpu : Cpu) (h : (Instr.ldIA : Instr α).on cpu = true) :
    Agrees val pc cpu (.ldIA) := by
  intro bs rest hb
  cases cpu <;>
  first
  | (obtain ⟨c1, b1, rfl⟩ := slots_byte val pc hb
     cases slots_nil val _ b1
     exact ⟨_, rfl, rfl⟩)
  | (obtain ⟨c1, b1, rfl⟩ := slots_byte val pc hb
     obtain ⟨c2, b2, rfl⟩ := slots_byte val _ b1
     cases slots_nil val _ b2
     exact ⟨_, rfl, rfl⟩)
  | (simp [Instr.on, P16.on, P16.hlLike, Cc.on, Imp.on] at h)

theorem agrees_ldRA (cpu : Cpu) (h : (Instr.ldRA : Instr α).on cpu = true) :
    Agrees val pc cpu (.ldRA) := by
  intro bs rest hb
  cases cpu <;>
  first
  | (obtain ⟨c1, b1, rfl⟩ := slots_byte val pc hb
     cases slots_nil val _ b1
     exact ⟨_, rfl, rfl⟩)
  | (obtain ⟨c1, b1, rfl⟩ := slots_byte val pc hb
     obtain ⟨c2, b2, rfl⟩ := slots_byte val _ b1
     cases slots_nil val _ b2
     exact ⟨_, rfl, rfl⟩)
  | (simp [Instr.on, P16.on, P16.hlLike, Cc.on, Imp.on] at h)

theorem agrees_push (cpu : Cpu) (p : P16) (h : (Instr.push p : Instr α).on cpu = true) :
    Agrees val pc cpu (.push p) := by
  intro bs rest hb
  cases cpu <;> cases p <;>
  first
  | (obtain ⟨c1, b1, rfl⟩ := slots_byte val pc hb
     cases slots_nil val _ b1
     exact ⟨_, rfl, rfl⟩)
  | (obtain ⟨c1, b1, rfl⟩ := slots_byte val pc hb
     obtain ⟨c2, b2, rfl⟩ := slots_byte val _ b1
     cases slots_nil val _ b2
     exact ⟨_, rfl, rfl⟩)
  | (simp [Instr.on, P16.on, P16.hlLike, Cc.on, Imp.on] at h)

theorem agrees_pop (cpu : Cpu) (p : P16) (h : (Instr.pop p : Instr α).on cpu = true) :
    Agrees val pc cpu (.pop p) := by
  intro bs rest hb
  cases cpu <;> cases p <;>
  first
  | (obtain ⟨c1, b1, rfl⟩ := slots_byte val pc hb
     cases slots_nil val _ b1
     exact ⟨_, rfl, rfl⟩)
  | (obtain ⟨c1, b1, rfl⟩ := slots_byte val pc hb
     obtain ⟨c2, b2, rfl⟩ := slots_byte val _ b1
     cases slots_nil val _ b2
     exact ⟨_, rfl, rfl⟩)
  | (simp [Instr.on, P16.on, P16.hlLike, Cc.on, Imp.on] at h)

theorem agrees_inc16 (cpu : Cpu) (p : P16) (h : (Instr.inc16 p : Instr α).on cpu = true) :
    Agrees val pc cpu (.inc16 p) := by
  intro bs rest hb
  cases cpu <;> cases p <;>
  first
  | (obtain ⟨c1, b1, rfl⟩ := slots_byte val pc hb
     cases slots_nil val _ b1
     exact ⟨_, rfl, rfl⟩)
  | (obtain ⟨c1, b1, rfl⟩ := slots_byte val pc hb
     obtain ⟨c2, b2, rfl⟩ := slots_byte val _ b1
     cases slots_nil val _ b2
     exact ⟨_, rfl, rfl⟩)
  | (simp [Instr.on, P16.on, P16.hlLike, Cc.on, Imp.on] at h)

theorem agrees_dec16 (cpu : Cpu) (p : P16) (h : (Instr.dec16 p : Instr α).on cpu = true) :
    Agrees val pc cpu (.dec16 p) := by
  intro bs rest hb
  cases cpu <;> cases p <;>
  first
  | (obtain ⟨c1, b1, rfl⟩ := slots_byte val pc hb
     cases slots_nil val _ b1
     exact ⟨_, rfl, rfl⟩)
  | (obtain ⟨c1, b1, rfl⟩ := slots_byte val pc hb
     obtain ⟨c2, b2, rfl⟩ := slots_byte val _ b1
     cases slots_nil val _ b2
     exact ⟨_, rfl, rfl⟩)
  | (simp [Instr.on, P16.on, P16.hlLike, Cc.on, Imp.on] at h)

theorem agrees_add16 (cpu : Cpu) (d p : P16) (h : (Instr.add16 d p : Instr α).on cpu = true) :
    Agrees val pc cpu (.add16 d p) := by
  intro bs rest hb
  cases cpu <;> cases d <;> cases p <;>
  first
  | (obtain ⟨c1, b1, rfl⟩ := slots_byte val pc hb
     cases slots_nil val _ b1
     exact ⟨_, rfl, rfl⟩)
  | (obtain ⟨c1, b1, rfl⟩ := slots_byte val pc hb
     obtain ⟨c2, b2, rfl⟩ := slots_byte val _ b1
     cases slots_nil val _ b2
     exact ⟨_, rfl, rfl⟩)
  | (simp [Instr.on, P16.on, P16.hlLike, Cc.on, Imp.on] at h)

theorem agrees_adc16 (cpu : Cpu) (p : P16) (h : (Instr.adc16 p : Instr α).on cpu = true) :
    Agrees val pc cpu (.adc16 p) := by
  intro bs rest hb
  cases cpu <;> cases p <;>
  first
  | (obtain ⟨c1, b1, rfl⟩ := slots_byte val pc hb
     cases slots_nil val _ b1
     exact ⟨_, rfl, rfl⟩)
  | (obtain ⟨c1, b1, rfl⟩ := slots_byte val pc hb
     obtain ⟨c2, b2, rfl⟩ := slots_byte val _ b1
     cases slots_nil val _ b2
     exact ⟨_, rfl, rfl⟩)
  | (simp [Instr.on, P16.on, P16.hlLike, Cc.on, Imp.on] at h)

theorem agrees_sbc16 (cpu : Cpu) (p : P16) (h : (Instr.sbc16 p : Instr α).on cpu = true) :
    Agrees val pc cpu (.sbc16 p) := by
  intro bs rest hb
  cases cpu <;> cases p <;>
  first
  | (obtain ⟨c1, b1, rfl⟩ := slots_byte val pc hb
     cases slots_nil val _ b1
     exact ⟨_, rfl, rfl⟩)
  | (obtain ⟨c1, b1, rfl⟩ := slots_byte val pc hb
     obtain ⟨c2, b2, rfl⟩ := slots_byte val _ b1
     cases slots_nil val _ b2
     exact ⟨_, rfl, rfl⟩)
  | (simp [Instr.on, P16.on, P16.hlLike, Cc.on, Imp.on] at h)

theorem agrees_jpInd (cpu : Cpu) (p : P16) (h : (Instr.jpInd p : Instr α).on cpu = true) :
    Agrees val pc cpu (.jpInd p) := by
  intro bs rest hb
  cases cpu <;> cases p <;>
  first
  | (obtain ⟨c1, b1, rfl⟩ := slots_byte val pc hb
     cases slots_nil val _ b1
     exact ⟨_, rfl, rfl⟩)
  | (obtain ⟨c1, b1, rfl⟩ := slots_byte val pc hb
     obtain ⟨c2, b2, rfl⟩ := slots_byte val _ b1
     cases slots_nil val _ b2
     exact ⟨_, rfl, rfl⟩)
  | (simp [Instr.on, P16.on, P16.hlLike, Cc.on, Imp.on] at h)

theorem agrees_exSp (cpu : Cpu) (p : P16) (h : (Instr.exSp p : Instr α).on cpu = true) :
    Agrees val pc cpu (.exSp p) := by
  intro bs rest hb
  cases cpu <;> cases p <;>
  first
  | (obtain ⟨c1, b1, rfl⟩ := slots_byte val pc hb
     cases slots_nil val _ b1
     exact ⟨_, rfl, rfl⟩)
  | (obtain ⟨c1, b1, rfl⟩ := slots_byte val pc hb
     obtain ⟨c2, b2, rfl⟩ := slots_byte val _ b1
     cases slots_nil val _ b2
     exact ⟨_, rfl, rfl⟩)
  | (simp [Instr.on, P16.on, P16.hlLike, Cc.on, Imp.on] at h)

theorem agrees_imp (cpu : Cpu) (i : Imp) (h : (Instr.imp i : Instr α).on cpu = true) :
    Agrees val pc cpu (.imp i) := by
  intro bs rest hb
  cases cpu <;> cases i <;>
  first
  | (obtain ⟨c1, b1, rfl⟩ := slots_byte val pc hb
     cases slots_nil val _ b1
     exact ⟨_, rfl, rfl⟩)
  | (obtain ⟨c1, b1, rfl⟩ := slots_byte val pc hb
     obtain ⟨c2, b2, rfl⟩ := slots_byte val _ b1
     cases slots_nil val _ b2
     exact ⟨_, rfl, rfl⟩)
  | (simp [Instr.on, P16.on, P16.hlLike, Cc.on, Imp.on] at h)

theorem agrees_ret (cpu : Cpu) (c : Option Cc) (h : (Instr.ret c : Instr α).on cpu = true) :
    Agrees val pc cpu (.ret c) := by
  intro bs rest hb
  rcases c with _ | c <;> cases cpu <;> (try cases c) <;>
  first
  | (obtain ⟨c1, b1, rfl⟩ := slots_byte val pc hb
     cases slots_nil val _ b1
     exact ⟨_, rfl, rfl⟩)
  | (simp [Instr.on, P16.on, P16.hlLike, Cc.on, Imp.on] at h)

theorem agrees_inC (cpu : Cpu) (x : Option R8) (h : (Instr.inC x : Instr α).on cpu = true) :
    Agrees val pc cpu (.inC x) := by
  intro bs rest hb
  rcases x with _ | x <;> cases cpu <;> (try cases x) <;>
  first
  | (obtain ⟨c1, b1, rfl⟩ := slots_byte val pc hb
     obtain ⟨c2, b2, rfl⟩ := slots_byte val _ b1
     cases slots_nil val _ b2
     exact ⟨_, rfl, rfl⟩)
  | (simp [Instr.on, P16.on, P16.hlLike, Cc.on, Imp.on] at h)

theorem agrees_outC (cpu : Cpu) (x : Option R8) (h : (Instr.outC x : Instr α).on cpu = true) :
    Agrees val pc cpu (.outC x) := by
  intro bs rest hb
  rcases x with _ | x <;> cases cpu <;> (try cases x) <;>
  first
  | (obtain ⟨c1, b1, rfl⟩ := slots_byte val pc hb
     obtain ⟨c2, b2, rfl⟩ := slots_byte val _ b1
     cases slots_nil val _ b2
     exact ⟨_, rfl, rfl⟩)
  | (simp [Instr.on, P16.on, P16.hlLike, Cc.on, Imp.on] at h)

theorem agrees_ldAMem (cpu : Cpu) (n : α) (h : (Instr.ldAMem n : Instr α).on cpu = true) :
    Agrees val pc cpu (.ldAMem n) := by
  intro bs rest hb
  cases cpu <;>
  first
  | (obtain ⟨c1, b1, rfl⟩ := slots_byte val pc hb
     obtain ⟨l, u, rfl, hv⟩ := slots_a16 val pc _ b1
     refine ⟨.ldAMem ((l : Int) + 256 * (u : Int)), ?_, rfl⟩
     show (readAs val pc _ _).map _ = _
     rw [hv]
     rfl)
  | (simp [Instr.on, P16.on, P16.hlLike, Cc.on, Imp.on] at h)

theorem agrees_stAMem (cpu : Cpu) (n : α) (h : (Instr.stAMem n : Instr α).on cpu = true) :
    Agrees val pc cpu (.stAMem n) := by
  intro bs rest hb
  cases cpu <;>
  first
  | (obtain ⟨c1, b1, rfl⟩ := slots_byte val pc hb
     obtain ⟨l, u, rfl, hv⟩ := slots_a16 val pc _ b1
     refine ⟨.stAMem ((l : Int) + 256 * (u : Int)), ?_, rfl⟩
     show (readAs val pc _ _).map _ = _
     rw [hv]
     rfl)
  | (simp [Instr.on, P16.on, P16.hlLike, Cc.on, Imp.on] at h)

theorem agrees_ldAHigh (cpu : Cpu) (n : α) (h : (Instr.ldAHigh n : Instr α).on cpu = true) :
    Agrees val pc cpu (.ldAHigh n) := by
  intro bs rest hb
  cases cpu <;>
  first
  | (obtain ⟨c1, b1, rfl⟩ := slots_byte val pc hb
     obtain ⟨v, rfl, hv⟩ := slots_hi val pc _ b1
     refine ⟨.ldAHigh (0xFF00 + (v : Int)), ?_, rfl⟩
     show (readAs val pc _ _).map _ = _
     rw [hv]
     rfl)
  | (simp [Instr.on, P16.on, P16.hlLike, Cc.on, Imp.on] at h)

theorem agrees_stAHigh (cpu : Cpu) (n : α) (h : (Instr.stAHigh n : Instr α).on cpu = true) :
    Agrees val pc cpu (.stAHigh n) := by
  intro bs rest hb
  cases cpu <;>
  first
  | (obtain ⟨c1, b1, rfl⟩ := slots_byte val pc hb
     obtain ⟨v, rfl, hv⟩ := slots_hi val pc _ b1
     refine ⟨.stAHigh (0xFF00 + (v : Int)), ?_, rfl⟩
     show (readAs val pc _ _).map _ = _
     rw [hv]
     rfl)
  | (simp [Instr.on, P16.on, P16.hlLike, Cc.on, Imp.on] at h)

theorem agrees_ldHlSp (cpu : Cpu) (n : α) (h : (Instr.ldHlSp n : Instr α).on cpu = true) :
    Agrees val pc cpu (.ldHlSp n) := by
  intro bs rest hb
  cases cpu <;>
  first
  | (obtain ⟨c1, b1, rfl⟩ := slots_byte val pc hb
     obtain ⟨v, c9, b9, rfl, hv⟩ := slots_s8 val pc _ b1
     cases slots_nil val _ b9
     refine ⟨.ldHlSp (sgn v), ?_, rfl⟩
     show (readAs val pc _ _).map _ = _
     rw [hv]
     rfl)
  | (simp [Instr.on, P16.on, P16.hlLike, Cc.on, Imp.on] at h)

theorem agrees_addSp (cpu : Cpu) (n : α) (h : (Instr.addSp n : Instr α).on cpu = true) :
    Agrees val pc cpu (.addSp n) := by
  intro bs rest hb
  cases cpu <;>
  first
  | (obtain ⟨c1, b1, rfl⟩ := slots_byte val pc hb
     obtain ⟨v, c9, b9, rfl, hv⟩ := slots_s8 val pc _ b1
     cases slots_nil val _ b9
     refine ⟨.addSp (sgn v), ?_, rfl⟩
     show (readAs val pc _ _).map _ = _
     rw [hv]
     rfl)
  | (simp [Instr.on, P16.on, P16.hlLike, Cc.on, Imp.on] at h)

theorem agrees_djnz (cpu : Cpu) (n : α) (h : (Instr.djnz n : Instr α).on cpu = true) :
    Agrees val pc cpu (.djnz n) := by
  intro bs rest hb
  cases cpu <;>
  first
  | (obtain ⟨c1, b1, rfl⟩ := slots_byte val pc hb
     obtain ⟨v, rfl, hv⟩ := slots_rel val pc b1
     refine ⟨.djnz (pc + 2 + sgn v), ?_, rfl⟩
     show (readAs val pc _ _).map _ = _
     rw [hv]
     rfl)
  | (simp [Instr.on, P16.on, P16.hlLike, Cc.on, Imp.on] at h)

theorem agrees_inA (cpu : Cpu) (n : α) (h : (Instr.inA n : Instr α).on cpu = true) :
    Agrees val pc cpu (.inA n) := by
  intro bs rest hb
  cases cpu <;>
  first
  | (obtain ⟨c1, b1, rfl⟩ := slots_byte val pc hb
     obtain ⟨v, rfl, hv⟩ := slots_p8 val pc _ b1
     refine ⟨.inA (v : Int), ?_, rfl⟩
     show (readAs val pc _ _).map _ = _
     rw [hv]
     rfl)
  | (simp [Instr.on, P16.on, P16.hlLike, Cc.on, Imp.on] at h)

theorem agrees_outA (cpu : Cpu) (n : α) (h : (Instr.outA n : Instr α).on cpu = true) :
    Agrees val pc cpu (.outA n) := by
  intro bs rest hb
  cases cpu <;>
  first
  | (obtain ⟨c1, b1, rfl⟩ := slots_byte val pc hb
     obtain ⟨v, rfl, hv⟩ := slots_p8 val pc _ b1
     refine ⟨.outA (v : Int), ?_, rfl⟩
     show (readAs val pc _ _).map _ = _
     rw [hv]
     rfl)
  | (simp [Instr.on, P16.on, P16.hlLike, Cc.on, Imp.on] at h)

theorem agrees_ldPair (cpu : Cpu) (p : P16) (n : α) (h : (Instr.ldPair p n : Instr α).on cpu = true) :
    Agrees val pc cpu (.ldPair p n) := by
  intro bs rest hb
  cases cpu <;> cases p <;>
  first
  | (obtain ⟨c1, b1, rfl⟩ := slots_byte val pc hb
     obtain ⟨l, u, rfl, hv⟩ := slots_n16 val pc _ b1
     refine ⟨.ldPair _ ((l : Int) + 256 * (u : Int)), ?_, rfl⟩
     show (readAs val pc _ _).map _ = _
     rw [hv]
     rfl)
  | (obtain ⟨c1, b1, rfl⟩ := slots_byte val pc hb
     obtain ⟨c2, b2, rfl⟩ := slots_byte val _ b1
     obtain ⟨l, u, rfl, hv⟩ := slots_n16 val pc _ b2
     refine ⟨.ldPair _ ((l : Int) + 256 * (u : Int)), ?_, rfl⟩
     show (readAs val pc _ _).map _ = _
     rw [hv]
     rfl)
  | (simp [Instr.on, P16.on, P16.hlLike, Cc.on, Imp.on] at h)

theorem agrees_ldPairMem (cpu : Cpu) (p : P16) (n : α) (h : (Instr.ldPairMem p n : Instr α).on cpu = true) :
    Agrees val pc cpu (.ldPairMem p n) := by
  intro bs rest hb
  cases cpu <;> cases p <;>
  first
  | (obtain ⟨c1, b1, rfl⟩ := slots_byte val pc hb
     obtain ⟨l, u, rfl, hv⟩ := slots_a16 val pc _ b1
     refine ⟨.ldPairMem _ ((l : Int) + 256 * (u : Int)), ?_, rfl⟩
     show (readAs val pc _ _).map _ = _
     rw [hv]
     rfl)
  | (obtain ⟨c1, b1, rfl⟩ := slots_byte val pc hb
     obtain ⟨c2, b2, rfl⟩ := slots_byte val _ b1
     obtain ⟨l, u, rfl, hv⟩ := slots_a16 val pc _ b2
     refine ⟨.ldPairMem _ ((l : Int) + 256 * (u : Int)), ?_, rfl⟩
     show (readAs val pc _ _).map _ = _
     rw [hv]
     rfl)
  | (simp [Instr.on, P16.on, P16.hlLike, Cc.on, Imp.on] at h)

theorem agrees_stPairMem (cpu : Cpu) (p : P16) (n : α) (h : (Instr.stPairMem p n : Instr α).on cpu = true) :
    Agrees val pc cpu (.stPairMem p n) := by
  intro bs rest hb
  cases cpu <;> cases p <;>
  first
  | (obtain ⟨c1, b1, rfl⟩ := slots_byte val pc hb
     obtain ⟨l, u, rfl, hv⟩ := slots_a16 val pc _ b1
     refine ⟨.stPairMem _ ((l : Int) + 256 * (u : Int)), ?_, rfl⟩
     show (readAs val pc _ _).map _ = _
     rw [hv]
     rfl)
  | (obtain ⟨c1, b1, rfl⟩ := slots_byte val pc hb
     obtain ⟨c2, b2, rfl⟩ := slots_byte val _ b1
     obtain ⟨l, u, rfl, hv⟩ := slots_a16 val pc _ b2
     refine ⟨.stPairMem _ ((l : Int) + 256 * (u : Int)), ?_, rfl⟩
     show (readAs val pc _ _).map _ = _
     rw [hv]
     rfl)
  | (simp [Instr.on, P16.on, P16.hlLike, Cc.on, Imp.on] at h)

theorem agrees_aluImm (cpu : Cpu) (op : Alu) (n : α) :
    Agrees val pc cpu (.aluImm op n) := by
  intro bs rest hb
  cases cpu <;> cases op <;>
  first
  | (obtain ⟨c1, b1, rfl⟩ := slots_byte val pc hb
     obtain ⟨v, rfl, hv⟩ := slots_n8 val pc _ b1
     refine ⟨.aluImm _ (v : Int), ?_, rfl⟩
     show (readAs val pc _ _).map _ = _
     rw [hv]
     rfl)

theorem agrees_jp (cpu : Cpu) (c : Option Cc) (n : α) (h : (Instr.jp c n : Instr α).on cpu = true) :
    Agrees val pc cpu (.jp c n) := by
  intro bs rest hb
  rcases c with _ | c <;> cases cpu <;> (try cases c) <;>
  first
  | (obtain ⟨c1, b1, rfl⟩ := slots_byte val pc hb
     obtain ⟨l, u, rfl, hv⟩ := slots_a16 val pc _ b1
     refine ⟨.jp _ ((l : Int) + 256 * (u : Int)), ?_, rfl⟩
     show (readAs val pc _ _).map _ = _
     rw [hv]
     rfl)
  | (simp [Instr.on, P16.on, P16.hlLike, Cc.on, Imp.on] at h)

theorem agrees_call (cpu : Cpu) (c : Option Cc) (n : α) (h : (Instr.call c n : Instr α).on cpu = true) :
    Agrees val pc cpu (.call c n) := by
  intro bs rest hb
  rcases c with _ | c <;> cases cpu <;> (try cases c) <;>
  first
  | (obtain ⟨c1, b1, rfl⟩ := slots_byte val pc hb
     obtain ⟨l, u, rfl, hv⟩ := slots_a16 val pc _ b1
     refine ⟨.call _ ((l : Int) + 256 * (u : Int)), ?_, rfl⟩
     show (readAs val pc _ _).map _ = _
     rw [hv]
     rfl)
  | (simp [Instr.on, P16.on, P16.hlLike, Cc.on, Imp.on] at h)

theorem agrees_jr (cpu : Cpu) (c : Option Cc) (n : α) (h : (Instr.jr c n : Instr α).on cpu = true) :
    Agrees val pc cpu (.jr c n) := by
  intro bs rest hb
  rcases c with _ | c <;> cases cpu <;> (try cases c) <;>
  first
  | (obtain ⟨c1, b1, rfl⟩ := slots_byte val pc hb
     obtain ⟨v, rfl, hv⟩ := slots_rel val pc b1
     refine ⟨.jr _ (pc + 2 + sgn v), ?_, rfl⟩
     show (readAs val pc _ _).map _ = _
     rw [hv]
     rfl)
  | (simp [Instr.on, P16.on, P16.hlLike, Cc.on, Imp.on] at h)

theorem agrees_rst (cpu : Cpu) (n : Nat) (h : (Instr.rst n : Instr α).on cpu = true) : Agrees val pc cpu (.rst n) := by
  intro bs rest hb
  obtain ⟨c1, b1, rfl⟩ := slots_byte val pc hb
  cases slots_nil val _ b1
  refine ⟨.rst n, rfl, ?_⟩
  clear hb b1
  simp only [Instr.on, List.mem_cons, List.not_mem_nil, or_false, decide_eq_true_eq] at h
  rcases h with h | h | h | h | h | h | h | h <;> subst h <;> cases cpu <;> rfl

theorem agrees_im (cpu : Cpu) (n : Nat) (h : (Instr.im n : Instr α).on cpu = true) : Agrees val pc cpu (.im n) := by
  intro bs rest hb
  obtain ⟨c1, b1, rfl⟩ := slots_byte val pc hb
  obtain ⟨c2, b2, rfl⟩ := slots_byte val _ b1
  cases slots_nil val _ b2
  refine ⟨.im n, rfl, ?_⟩
  clear hb b1 b2
  simp only [Instr.on, Bool.and_eq_true, decide_eq_true_eq] at h
  obtain ⟨rfl, h⟩ := h
  have : n = 0 ∨ n = 1 ∨ n = 2 := by omega
  rcases this with h | h | h <;> subst h <;> rfl

/-- The processor decodes every instruction from its encoding. -/
theorem agrees (cpu : Cpu) (i : Instr α) (h : i.on cpu = true) : Agrees val pc cpu i := by
  cases i with
  | ld x y => exact agrees_ld val pc cpu x y h
  | ldImm x n => exact agrees_ldImm val pc cpu x n h
  | ldAPtr p => exact agrees_ldAPtr val pc cpu p h
  | stAPtr p => exact agrees_stAPtr val pc cpu p h
  | ldAMem n => exact agrees_ldAMem val pc cpu n h
  | stAMem n => exact agrees_stAMem val pc cpu n h
  | ldAHigh n => exact agrees_ldAHigh val pc cpu n h
  | stAHigh n => exact agrees_stAHigh val pc cpu n h
  | ldAC => exact agrees_ldAC val pc cpu h
  | stAC => exact agrees_stAC val pc cpu h
  | ldPair p n => exact agrees_ldPair val pc cpu p n h
  | ldPairMem p n => exact agrees_ldPairMem val pc cpu p n h
  | stPairMem p n => exact agrees_stPairMem val pc cpu p n h
  | ldSp p => exact agrees_ldSp val pc cpu p h
  | ldHlSp d => exact agrees_ldHlSp val pc cpu d h
  | addSp d => exact agrees_addSp val pc cpu d h
  | ldAI => exact agrees_ldAI val pc cpu h
  | ldAR => exact agrees_ldAR val pc cpu h
  | ldIA => exact agrees_ldIA val pc cpu h
  | ldRA => exact agrees_ldRA val pc cpu h
  | push p => exact agrees_push val pc cpu p h
  | pop p => exact agrees_pop val pc cpu p h
  | alu op l => exact agrees_alu val pc cpu op l h
  | aluImm op n => exact agrees_aluImm val pc cpu op n
  | inc l => exact agrees_inc val pc cpu l h
  | dec l => exact agrees_dec val pc cpu l h
  | inc16 p => exact agrees_inc16 val pc cpu p h
  | dec16 p => exact agrees_dec16 val pc cpu p h
  | add16 d p => exact agrees_add16 val pc cpu d p h
  | adc16 p => exact agrees_adc16 val pc cpu p h
  | sbc16 p => exact agrees_sbc16 val pc cpu p h
  | rot op l => exact agrees_rot val pc cpu op l h
  | bit op n l => exact agrees_bit val pc cpu op n l h
  | jp c n => exact agrees_jp val pc cpu c n h
  | jpInd p => exact agrees_jpInd val pc cpu p h
  | jr c n => exact agrees_jr val pc cpu c n h
  | djnz n => exact agrees_djnz val pc cpu n h
  | call c n => exact agrees_call val pc cpu c n h
  | ret c => exact agrees_ret val pc cpu c h
  | rst n => exact agrees_rst val pc cpu n h
  | im n => exact agrees_im val pc cpu n h
  | inC x => exact agrees_inC val pc cpu x h
  | outC x => exact agrees_outC val pc cpu x h
  | inA n => exact agrees_inA val pc cpu n h
  | outA n => exact agrees_outA val pc cpu n h
  | exSp p => exact agrees_exSp val pc cpu p h
  | imp i => exact agrees_imp val pc cpu i h

end

end Verif.Cpu.Z80
