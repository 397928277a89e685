import Verif.Object.Lemmas
import Verif.Library.Lemmas
/-!
# Properties of object files (C15, C16, C19)
-/
namespace Verif.Object

/-- **C15.** What the assembler writes to an object file is what the linker reads: after reading the file the
linker knows, besides what it knew before, the source files and the sections of the object with all
their fields, symbols, line mappings, contents and patches. Source file numbers are shifted by the number of
files known before, text sections in HOME go to bank 0. -/
theorem C15_object_round_trip (st : LState) (o : Obj) (h : o.Ok)
    (hb : st.files.length + o.files.length ≤ 4294967296) :
    objRead st (writeObject o) = some (load 6 st o) := by
  rw [← encode_6]
  exact objRead_encode (by omega) h hb

/-- A small object: one text and one bss group, a section with a symbol, contents and a patch, a section with the
group HOME and the section of exported constants. -/
def sample : Obj where
  wordSize := 1
  files := [⟨[0x61], 7⟩, ⟨[0x62], 9⟩]
  groups := [⟨[0x43], 0, true, false⟩, ⟨[0x42], 1, false, true⟩, ⟨homeName, 0, false, false⟩]
  sections := [
    ⟨none, [], none, none, none, none, false, none, [⟨[0x78], 0, 0xFFFFFFFF, some 1, 3⟩], [], 0, none⟩,
    ⟨some 0, [0x73], some 2, some 0x100, some 0x80, some 4, true, some 256,
      [⟨[0x6C], 2, 1, some 0, 8⟩, ⟨[0x69], 1, 0, none, 0⟩], [⟨1, 8, 0⟩], 2,
      some ([0xAA, 0], [⟨1, 0, [31, 0, 0, 0, 0]⟩])⟩,
    ⟨some 1, [0x74], none, none, none, none, false, none, [], [], 40, none⟩,
    ⟨some 2, [0x75], some 5, none, none, none, false, none, [], [], 0, some ([], [])⟩]

theorem sample_ok : sample.Ok := by
  have hsym : ∀ (nm : Bytes) (t v : Nat) (f : Option Nat) (l : Nat), Name nm → Word t → Word v →
      (t = 1 ∨ t = 4 → v = 0) → (∀ k, f = some k → k < 2) → Word l → Symbol.Ok 2 ⟨nm, t, v, f, l⟩ :=
    fun _ _ _ _ _ a b c d e f => ⟨a, b, c, d, e, f⟩
  refine ⟨by decide, ?_, by decide, ?_, by decide, ?_, by decide⟩
  · intro f hf
    simp only [sample, List.mem_cons, List.not_mem_nil, or_false] at hf
    rcases hf with rfl | rfl <;> exact ⟨by decide, by decide⟩
  · intro f hf
    simp only [sample, List.mem_cons, List.not_mem_nil, or_false] at hf
    rcases hf with rfl | rfl | rfl <;> exact ⟨by decide, by decide⟩
  · intro f hf
    simp only [sample, List.mem_cons, List.not_mem_nil, or_false] at hf
    rcases hf with rfl | rfl | rfl | rfl <;>
      refine ⟨?_, ⟨?_, ?_⟩, ?_, ?_, ?_, ?_, ?_, ?_, ?_, ?_, ?_, ?_, ?_, ?_, ?_⟩ <;>
      simp [OptWord, sample]
    all_goals first
      | (refine hsym _ _ _ _ _ ⟨?_, ?_⟩ ?_ ?_ ?_ ?_ ?_ <;> simp; done)
      | (refine ⟨hsym _ _ _ _ _ ⟨?_, ?_⟩ ?_ ?_ ?_ ?_ ?_, hsym _ _ _ _ _ ⟨?_, ?_⟩ ?_ ?_ ?_ ?_ ?_⟩ <;>
          simp; done)
      | (constructor <;> simp; done)

-- The file can be read by the linker when it already knows one source file.
example : objRead ⟨[⟨[0x7A], 0⟩], [], 3⟩ (writeObject sample) = some (load 6 ⟨[⟨[0x7A], 0⟩], [], 3⟩ sample) := by
  decide +kernel

/-- **C16.** Files in every older version of the format are still read; fields that the version lacks get their
defaults. -/
theorem C16_old_versions (v : Nat) (hv : v ≤ 6) (st : LState) (o : Obj) (h : o.Ok)
    (hb : st.files.length + o.files.length ≤ 4294967296) :
    objRead st (encode v o) = some (load v st o) :=
  objRead_encode hv h hb

-- The sample in all versions.
example : ∀ v : Fin 7, objRead ⟨[], [], 0⟩ (encode v sample) = some (load v ⟨[], [], 0⟩ sample) := by
  decide +kernel

/-- **C19.** Linking with a library is the same as linking with the object files it was made of: the linker knows
the same sections, with the same numbers, and the same source files. -/
theorem C19_library_like_files (fs : List ObjFile) (st : LState) (h : ∀ f ∈ fs, f.Ok) (hc : Word fs.length)
    (hb : st.files.length + totalFiles fs ≤ 4294967296) :
    objRead st (Library.libWrite (fs.map ObjFile.module)) = fs.foldlM (fun st f => objRead st f.bytes) st := by
  rw [objRead_library fs st h hc hb, objRead_files fs st h hb]

-- A library of two objects.
example : objRead ⟨[], [], 0⟩ (Library.libWrite [⟨[0x61], writeObject sample⟩, ⟨[0x62], encode 3 sample⟩])
    = some (load 3 (load 6 ⟨[], [], 0⟩ sample) sample) := by decide +kernel

/-- An object without groups and sections. -/
def emptyObj : Obj := ⟨1, [], [], []⟩

/-- **C19, negation.** The linker accepts a file that is the concatenation of two object files, but if such a file
is put into a library with another module, the library cannot be read: the length of a module is ignored. -/
theorem C19_concatenated_objects_break_library :
    (objRead ⟨[], [], 0⟩ (writeObject emptyObj ++ writeObject emptyObj)).isSome = true ∧
    objRead ⟨[], [], 0⟩ (Library.libWrite
      [⟨[0x61], writeObject emptyObj ++ writeObject emptyObj⟩, ⟨[0x62], writeObject emptyObj⟩]) = none := by
  decide +kernel

/-- Likewise an empty file, which the linker accepts and which holds nothing. -/
theorem C19_empty_file_breaks_library :
    objRead ⟨[], [], 0⟩ [] = some ⟨[], [], 0⟩ ∧
    objRead ⟨[], [], 0⟩ (Library.libWrite [⟨[0x61], []⟩, ⟨[0x62], writeObject emptyObj⟩]) = none := by
  decide +kernel

end Verif.Object
