/-!
# Byte streams

Contracts of the helpers from `util/file.h` (an empty submodule in this checkout): 16 and 32-bit numbers in
little or big endian order and NUL terminated strings. A file that is being read is the list of the bytes
that remain. Reading past the end yields `none` (in C: unspecified garbage).
-/
namespace Verif

abbrev Bytes := List UInt8

/-- The byte with value `n % 256`. -/
def byte (n : Nat) : UInt8 := UInt8.ofNat n

/-- `fputc` -/
def put8 (n : Nat) : Bytes := [byte n]

/-- `fputlw`: 16-bit little endian. -/
def put16le (n : Nat) : Bytes := [byte n, byte (n / 256)]

/-- `fputbw`: 16-bit big endian. -/
def put16be (n : Nat) : Bytes := [byte (n / 256), byte n]

/-- `fputll`: 32-bit little endian. -/
def put32le (n : Nat) : Bytes := [byte n, byte (n / 256), byte (n / 65536), byte (n / 16777216)]

/-- `fputbl`: 32-bit big endian. -/
def put32be (n : Nat) : Bytes := [byte (n / 16777216), byte (n / 65536), byte (n / 256), byte n]

/-- `fputsz`: the characters and a terminating NUL. -/
def putSz (s : Bytes) : Bytes := s ++ [0]

/-- `fgetc` -/
def get8 : Bytes → Option (Nat × Bytes)
  | [] => none
  | b :: bs => some (b.toNat, bs)

/-- `fgetlw` -/
def get16le : Bytes → Option (Nat × Bytes)
  | a :: b :: r => some (a.toNat + 256 * b.toNat, r)
  | _ => none

/-- `fgetbw` -/
def get16be : Bytes → Option (Nat × Bytes)
  | a :: b :: r => some (256 * a.toNat + b.toNat, r)
  | _ => none

/-- `fgetll` -/
def get32le : Bytes → Option (Nat × Bytes)
  | a :: b :: c :: d :: r => some (a.toNat + 256 * b.toNat + 65536 * c.toNat + 16777216 * d.toNat, r)
  | _ => none

/-- `fgetbl` -/
def get32be : Bytes → Option (Nat × Bytes)
  | a :: b :: c :: d :: r => some (16777216 * a.toNat + 65536 * b.toNat + 256 * c.toNat + d.toNat, r)
  | _ => none

/-- `fgetsz` without its length limit: the characters before the first NUL, which is consumed. -/
def getSz : Bytes → Option (Bytes × Bytes)
  | [] => none
  | b :: bs =>
    if b = 0 then some ([], bs)
    else
      match getSz bs with
      | none => none
      | some (s, r) => some (b :: s, r)

/-- `fread` of exactly `n` bytes. -/
def getN (n : Nat) (bs : Bytes) : Option (Bytes × Bytes) :=
  if n ≤ bs.length then some (bs.take n, bs.drop n) else none

theorem byte_toNat (n : Nat) : (byte n).toNat = n % 256 := by
  simp [byte, UInt8.toNat_ofNat']

@[simp] theorem get8_put8 {n : Nat} (h : n < 256) (r : Bytes) : get8 (put8 n ++ r) = some (n, r) := by
  simp only [put8, List.cons_append, List.nil_append, get8, byte_toNat]
  rw [Nat.mod_eq_of_lt h]

@[simp] theorem get16le_put16le {n : Nat} (h : n < 65536) (r : Bytes) :
    get16le (put16le n ++ r) = some (n, r) := by
  simp only [put16le, List.cons_append, List.nil_append, get16le, byte_toNat]
  congr 2; omega

@[simp] theorem get16be_put16be {n : Nat} (h : n < 65536) (r : Bytes) :
    get16be (put16be n ++ r) = some (n, r) := by
  simp only [put16be, List.cons_append, List.nil_append, get16be, byte_toNat]
  congr 2; omega

@[simp] theorem get32le_put32le {n : Nat} (h : n < 4294967296) (r : Bytes) :
    get32le (put32le n ++ r) = some (n, r) := by
  simp only [put32le, List.cons_append, List.nil_append, get32le, byte_toNat]
  congr 2; omega

@[simp] theorem get32be_put32be {n : Nat} (h : n < 4294967296) (r : Bytes) :
    get32be (put32be n ++ r) = some (n, r) := by
  simp only [put32be, List.cons_append, List.nil_append, get32be, byte_toNat]
  congr 2; omega

@[simp] theorem getSz_putSz {s : Bytes} (h : (0 : UInt8) ∉ s) (r : Bytes) :
    getSz (putSz s ++ r) = some (s, r) := by
  induction s with
  | nil => simp [putSz, getSz]
  | cons b s ih =>
    simp only [List.mem_cons, not_or] at h
    have hb : ¬ b = 0 := fun e => h.1 e.symm
    have e : putSz (b :: s) ++ r = b :: (putSz s ++ r) := rfl
    rw [e, getSz, if_neg hb, ih h.2]

@[simp] theorem getN_append (d r : Bytes) : getN d.length (d ++ r) = some (d, r) := by
  simp [getN]

/-! Reading is the inverse of writing. -/

theorem byte_of_toNat (b : UInt8) (n : Nat) (h : n % 256 = b.toNat) : byte n = b := by
  apply UInt8.toNat_inj.1
  rw [byte_toNat, h]

theorem get32le_some {bs r : Bytes} {n : Nat} (h : get32le bs = some (n, r)) : bs = put32le n ++ r ∧ n < 4294967296 := by
  match bs, h with
  | a :: b :: c :: d :: r', h =>
    simp only [get32le, Option.some.injEq, Prod.mk.injEq] at h
    obtain ⟨rfl, rfl⟩ := h
    have := a.toNat_lt; have := b.toNat_lt; have := c.toNat_lt; have := d.toNat_lt
    refine ⟨?_, by omega⟩
    simp only [put32le, List.cons_append, List.nil_append]
    rw [byte_of_toNat a _ (by omega), byte_of_toNat b _ (by omega), byte_of_toNat c _ (by omega),
      byte_of_toNat d _ (by omega)]

theorem getSz_some : ∀ {bs s r : Bytes}, getSz bs = some (s, r) → bs = putSz s ++ r ∧ (0 : UInt8) ∉ s := by
  intro bs
  induction bs with
  | nil => intro s r h; simp [getSz] at h
  | cons b bs ih =>
    intro s r h
    unfold getSz at h
    split at h
    next hb =>
      simp only [Option.some.injEq, Prod.mk.injEq] at h
      obtain ⟨rfl, rfl⟩ := h
      simp [putSz, hb]
    next hb =>
      split at h
      · cases h
      next s' r' hs =>
      simp only [Option.some.injEq, Prod.mk.injEq] at h
      obtain ⟨rfl, rfl⟩ := h
      obtain ⟨h1, h2⟩ := ih hs
      refine ⟨by rw [h1]; simp [putSz], ?_⟩
      simp only [List.mem_cons, not_or]
      exact ⟨fun e => hb e.symm, h2⟩

theorem getN_some {n : Nat} {bs s r : Bytes} (h : getN n bs = some (s, r)) : bs = s ++ r ∧ s.length = n := by
  unfold getN at h
  split at h
  · simp only [Option.some.injEq, Prod.mk.injEq] at h
    obtain ⟨rfl, rfl⟩ := h
    simp; omega
  · cases h

theorem length_put32le (n : Nat) : (put32le n).length = 4 := rfl
theorem length_putSz (s : Bytes) : (putSz s).length = s.length + 1 := by simp [putSz]

end Verif
