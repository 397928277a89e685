import Verif.Bytes
/-!
# Readers of byte streams

Sequencing of the read functions of `Verif.Bytes`; `none` is an error or the end of the file.
-/
namespace Verif

/-- A function that reads a value from the front of a file. -/
structure Parser (α : Type) where
  run : Bytes → Option (α × Bytes)

namespace Parser

/-- Read one thing, then another that depends on it. -/
def bind (p : Parser α) (f : α → Parser β) : Parser β :=
  ⟨fun bs =>
    match p.run bs with
    | none => none
    | some (a, r) => (f a).run r⟩

/-- Read nothing. -/
def pure (a : α) : Parser α := ⟨fun bs => some (a, bs)⟩

/-- Report an error. -/
def fail : Parser α := ⟨fun _ => none⟩

instance : Monad Parser where
  pure := pure
  bind := bind

/-- A counted loop: read `n` items. -/
def times : Nat → Parser α → Parser (List α)
  | 0, _ => pure []
  | n + 1, p => do
    let a ← p
    let as ← times n p
    return a :: as

end Parser

def u8 : Parser Nat := ⟨get8⟩
def u32 : Parser Nat := ⟨get32le⟩

/-- `fgetsz` into a buffer of 256 bytes. A longer name is cut off or overflows, which is not modelled: `none`. -/
def name : Parser Bytes :=
  ⟨fun bs =>
    match getSz bs with
    | none => none
    | some (s, r) => if s.length < 256 then some (s, r) else none⟩

/-- `fgetstr`: a string without a limit. -/
def str : Parser Bytes := ⟨getSz⟩

def raw (n : Nat) : Parser Bytes := ⟨getN n⟩

/-- `p` reads exactly the bytes `w`, whatever follows them, and yields `a`. -/
def Reads (p : Parser α) (w : Bytes) (a : α) : Prop := ∀ r, p.run (w ++ r) = some (a, r)

theorem Reads.pure (a : α) : Reads (Pure.pure a : Parser α) [] a := fun _ => rfl

theorem Reads.bind {p : Parser α} {f : α → Parser β} {w w' : Bytes} {a : α} {b : β}
    (h : Reads p w a) (h' : Reads (f a) w' b) : Reads (p >>= f) (w ++ w') b := by
  intro r
  show (Parser.bind p f).run _ = _
  have e := h (w' ++ r)
  simp only [Parser.bind, List.append_assoc, e]
  exact h' r

theorem Reads.map {p : Parser α} {f : α → β} {w : Bytes} {a : α}
    (h : Reads p w a) : Reads (p >>= fun x => Pure.pure (f x)) w (f a) := by
  have := h.bind (f := fun x => Pure.pure (f x)) (Reads.pure (f a))
  simpa using this

theorem Reads.times {p : Parser β} {w : α → Bytes} {g : α → β} (as : List α)
    (h : ∀ a ∈ as, Reads p (w a) (g a)) : Reads (Parser.times as.length p) (as.flatMap w) (as.map g) := by
  induction as with
  | nil => exact Reads.pure _
  | cons a as ih =>
    simp only [List.length_cons, Parser.times, List.flatMap_cons, List.map_cons]
    exact (h a (by simp)).bind ((ih (fun a h' => h a (by simp [h']))).map (f := fun as => g a :: as))

theorem reads_u8 {n : Nat} (h : n < 256) : Reads u8 (put8 n) n := fun r => get8_put8 h r
theorem reads_u32 {n : Nat} (h : n < 4294967296) : Reads u32 (put32le n) n := fun r => get32le_put32le h r
theorem reads_str {s : Bytes} (h : (0 : UInt8) ∉ s) : Reads str (putSz s) s := fun r => getSz_putSz h r
theorem reads_raw (d : Bytes) : Reads (raw d.length) d d := fun r => getN_append d r

theorem reads_name {s : Bytes} (h : (0 : UInt8) ∉ s) (hl : s.length < 256) : Reads name (putSz s) s := by
  intro r
  simp only [name, getSz_putSz h r]
  rw [if_pos hl]

/-- `p` does not read past the items it reads, it fails or takes a prefix: the rest is a suffix. -/
theorem Reads.cast {p : Parser α} {w w' : Bytes} {a a' : α} (h : Reads p w a) (hw : w = w') (ha : a = a') :
    Reads p w' a' := hw ▸ ha ▸ h

end Verif
