import Verif.Object.Spec
import Verif.Library.Model
namespace Verif.Object

theorem reads_opt {n : Option Nat} (h : OptWord n) : Reads optU32 (putOpt n) n := by
  cases n with
  | none =>
    exact ((reads_u32 (n := U32MAX) (by decide)).map (f := fun n => if n = U32MAX then none else some n)).cast
      rfl (by simp)
  | some k =>
    have hk := h k rfl
    exact ((reads_u32 (n := k) (by omega)).map (f := fun n => if n = U32MAX then none else some n)).cast
      rfl (by rw [if_neg (by omega)])

theorem reads_list {p : Parser β} {w : α → Bytes} {g : α → β} (as : List α) (hn : Word as.length)
    (h : ∀ a ∈ as, Reads p (w a) (g a)) : Reads (listOf p) (writeList w as) (as.map g) :=
  (reads_u32 hn).bind (Reads.times as h)

theorem reads_list_id {p : Parser α} {w : α → Bytes} (as : List α) (hn : Word as.length)
    (h : ∀ a ∈ as, Reads p (w a) a) : Reads (listOf p) (writeList w as) as :=
  (reads_list (g := id) as hn h).cast rfl (by simp)

theorem reads_group {g : Group} (h : g.Ok) : Reads readGroup (writeGroup g) g := by
  have ht := h.type
  have hw : g.word < 4294967296 := by
    unfold Group.word; split <;> split <;> omega
  refine ((reads_name h.name.1 h.name.2).bind ((reads_u32 hw).map)).cast rfl ?_
  obtain ⟨nm, t, d, s⟩ := g
  simp only at ht
  have : t = 0 ∨ t = 1 := by omega
  rcases this with rfl | rfl <;> cases d <;> cases s <;> simp [Group.word]

theorem reads_file {f : FileInfo} (h : f.Ok) : Reads readFile (writeFile f) f :=
  (reads_str h.name).bind ((reads_u32 h.crc).map (f := fun crc => FileInfo.mk f.name crc))

theorem reads_patch {p : Patch} (h : p.Ok) : Reads readPatch (writePatch p) p := by
  refine ((reads_u32 h.offset).bind ((reads_u32 h.type).bind ((reads_u32 h.expr).bind
    ((reads_raw p.expr).map (f := fun expr => Patch.mk p.offset p.type expr))))).cast ?_ rfl
  simp [writePatch, List.append_assoc]

theorem reads_line {n base count : Nat} {l : LineMapping} (h : l.Ok n) (hc : n + base ≤ count)
    (hb : n + base ≤ 4294967296) : Reads (readLine base count) (writeLine l) (loadLine base l) := by
  have hf := h.file
  have ha : add32 l.file base = l.file + base := add32_eq (by omega)
  refine ((reads_u32 (n := l.file) (by omega)).bind (f := _) (w' := put32le l.line ++ put32le l.offset)
    (b := loadLine base l) ?_).cast ?_ rfl
  · rw [ha, if_pos (by omega)]
    exact (reads_u32 h.line).bind ((reads_u32 h.offset).map
      (f := fun o => LineMapping.mk (l.file + base) l.line o))
  · simp [writeLine, List.append_assoc]

theorem reads_since {p : Parser α} {w : Bytes} {a d : α} (v v0 : Nat) (h : v ≥ v0 → Reads p w a) :
    Reads (if v ≥ v0 then p else pure d) (since v v0 w) (if v ≥ v0 then a else d) := by
  by_cases hv : v ≥ v0
  · simp only [since, if_pos hv]; exact h hv
  · simp only [since, if_neg hv]; exact Reads.pure d

theorem reads_symbol {v n base count : Nat} {s : Symbol} (h : s.Ok n) (hc : v ≥ 5 → n + base ≤ count)
    (hb : v ≥ 5 → n + base ≤ 4294967296) (hn : Word n) :
    Reads (readSymbol v base count) (encSymbol v s) (loadSymbol v base s) := by
  have hv : Reads (if readsValue s.type then u32 else pure 0)
      (if s.type = 1 ∨ s.type = 4 then [] else put32le s.value) s.value := by
    by_cases ht : s.type = 1 ∨ s.type = 4
    · rw [if_pos ht, if_neg (by rcases ht with h | h <;> simp [readsValue, h]), h.noValue ht]; exact Reads.pure 0
    · rw [if_neg ht, if_pos (by simpa [readsValue] using ht)]; exact reads_u32 h.value
  refine ((reads_name h.name.1 h.name.2).bind ((reads_u32 h.type).bind (hv.bind
    (w' := since v 5 (putOpt s.file ++ put32le s.line)) (b := loadSymbol v base s) ?_))).cast ?_ rfl
  · by_cases h5 : v ≥ 5
    · simp only [since, if_pos h5]
      have hopt : OptWord s.file := by
        intro k hk
        have := h.file k hk
        have : n < 4294967296 := hn
        omega
      cases hf : s.file with
      | none =>
        rw [hf] at hopt
        refine (reads_opt hopt).bind (((reads_u32 h.line).map
          (f := fun l => Symbol.mk s.name s.type s.value none l)).cast rfl ?_)
        simp [loadSymbol, h5, hf]
      | some f =>
        rw [hf] at hopt
        have hfn := h.file f hf
        have := hc h5
        have := hb h5
        have ha : add32 f base = f + base := add32_eq (by omega)
        have e : loadSymbol v base s = ⟨s.name, s.type, s.value, some (f + base), s.line⟩ := by
          simp [loadSymbol, h5, hf]
        rw [e]
        refine (reads_opt hopt).bind (w' := put32le s.line) ?_
        refine Reads.cast (w := put32le s.line ++ []) ((reads_u32 h.line).bind ?_) (by simp) rfl
        simp only [ha]
        rw [if_pos (by omega)]
        exact Reads.pure _
    · simp only [since, if_neg h5]
      refine (Reads.pure _).cast rfl ?_
      simp [loadSymbol, h5]
  · simp [encSymbol, List.append_assoc]


theorem reads_body {groups : List Group} {n : Nat} {s : Section} (h : s.Ok n groups) :
    Reads (if isText (s.group.bind (groups[·]?)) then (do
        let data ← raw s.size
        let patches ← listOf readPatch
        return some (data, patches))
      else pure none)
      (writeBody s.body) s.body := by
  have hiff : isText (s.group.bind (groups[·]?)) = true ↔ s.body ≠ none := by
    rw [← h.body]
    cases hg : s.group with
    | none => simp [isText]
    | some id =>
      cases hgi : groups[id]? with
      | none => simp [isText, hgi]
      | some g => simp [isText, hgi]
  cases hb : s.body with
  | none =>
    rw [if_neg (by rw [hiff]; simp [hb])]
    exact Reads.pure _
  | some dp =>
    obtain ⟨d, ps⟩ := dp
    rw [if_pos (by rw [hiff]; simp [hb])]
    simp only [writeBody]
    have hl := h.data d ps hb
    have hp := h.patches d ps hb
    rw [← hl]
    exact (reads_raw d).bind ((reads_list_id ps hp.1 (fun p hpm => reads_patch (hp.2 p hpm))).map
      (f := fun ps => some (d, ps)))

theorem isHome_eq (g : Option Group) :
    (isText g && (g.map Group.name == some homeName)) = isHome g := by
  cases g with
  | none => rfl
  | some g => simp [isText, isHome]

theorem reads_section {v n base count wordSize fileId : Nat} {groups : List Group} {s : Section}
    (h : s.Ok n groups) (hg : groups.length < 4294967295) (hn : Word n)
    (hc : v ≥ 2 → n + base ≤ count) (hb : v ≥ 2 → n + base ≤ 4294967296) (hw : v < 1 → wordSize = 1) :
    Reads (readSection v base count wordSize fileId groups) (encSection v s)
      (loadSection v base wordSize fileId groups s) := by
  have hgid : Reads u32 (putOpt s.group) (s.group.getD U32MAX) := by
    apply reads_u32
    cases hs : s.group with
    | none => simp
    | some g => have := h.group g hs; simp; omega
  have hgrp : getGroup groups (s.group.getD U32MAX) = s.group.bind (groups[·]?) := by
    cases hs : s.group with
    | none => simp [getGroup]
    | some g =>
      have := h.group g hs
      simp only [getGroup, Option.getD_some, Option.bind_some]
      rw [if_neg (by omega)]
  have hroot : Reads (do let b ← u8; return b != 0) (putBool s.root) s.root := by
    refine ((reads_u8 (n := if s.root then 1 else 0) (by split <;> decide)).map (f := fun b => b != 0)).cast rfl ?_
    cases s.root <;> rfl
  refine (hgid.bind ((reads_name h.name.1 h.name.2).bind ((reads_opt h.bank).bind ((reads_opt h.byteLoc).bind
    ((reads_since v 1 (fun _ => reads_opt h.loc)).bind ((reads_since v 3 (fun _ => reads_opt h.align)).bind
    ((reads_since v 4 (fun _ => hroot)).bind ((reads_since v 6 (fun _ => reads_opt h.page)).bind
    ((reads_list (g := loadSymbol v base) s.symbols h.symbolCount (fun x hx => reads_symbol (h.symbols x hx)
      (fun h5 => hc (by omega)) (fun h5 => hb (by omega)) hn)).bind
    ((reads_since v 2 (fun h2 => reads_list (g := loadLine base) s.lines h.lineCount
      (fun l hl => reads_line (h.lines l hl) (hc h2) (hb h2)))).bind
    ((reads_u32 h.size).bind
    (Reads.map (w := writeBody s.body) (a := s.body) ?_)))))))))))).cast ?_ ?_
  · rw [hgrp]; exact reads_body h
  · simp [encSection, List.append_assoc]
  · rw [hgrp, isHome_eq]
    simp only [loadSection]
    congr 1
    split
    · rfl
    · rename_i h1; exact hw (by omega)

theorem reads_xob {v : Nat} {st : LState} {o : Obj} (h : o.Ok)
    (hb : st.files.length + o.files.length ≤ 4294967296) :
    Reads (readXOB v st)
      (since v 1 (put8 o.wordSize) ++ (since v 2 (writeList writeFile o.files)
        ++ (writeList writeGroup o.groups ++ writeList (encSection v) o.sections))) (load v st o) := by
  have hfc : Word o.files.length := h.fileCount
  refine ((reads_since v 1 (fun _ => reads_u8 h.wordSize)).bind
    ((reads_since v 2 (fun _ => reads_list_id o.files h.fileCount (fun f hf => reads_file (h.files f hf)))).bind
    ((reads_list_id o.groups (Nat.lt_of_lt_of_le h.groupCount (by decide))
      (fun g hg => reads_group (h.groups g hg))).bind
    (Reads.map (reads_list (g := loadSection v (if v ≥ 2 then st.files.length else 0)
        (if v ≥ 1 then o.wordSize else 1) st.nextId o.groups)
      o.sections h.sectionCount (fun s hs => reads_section (h.sections s hs) h.groupCount hfc ?_ ?_ ?_)))))).cast
      rfl ?_
  · intro h2; simp only [if_pos h2, List.length_append]; omega
  · intro h2; simp only [if_pos h2]; omega
  · intro h1; rw [if_neg (by omega)]
  · simp only [load]
    congr 2
    apply List.map_congr_left
    intro s _
    simp only [loadSection]
    congr 1
    split <;> simp_all

theorem reads_chunk {v : Nat} (hv : v ≤ 6) {st : LState} {o : Obj} (h : o.Ok)
    (hb : st.files.length + o.files.length ≤ 4294967296) (depth : Nat) :
    Reads (readChunk (depth + 1) st) (encode v o) (load v st o) := by
  have e : encode v o = [0x58, 0x4F, 0x42, byte v] ++ (since v 1 (put8 o.wordSize)
      ++ (since v 2 (writeList writeFile o.files) ++ (writeList writeGroup o.groups
        ++ writeList (encSection v) o.sections))) := by
    simp [encode, List.append_assoc]
  rw [e]
  have hx := reads_xob (v := v) h hb
  refine (reads_raw [0x58, 0x4F, 0x42, byte v]).bind ?_
  have : v = 0 ∨ v = 1 ∨ v = 2 ∨ v = 3 ∨ v = 4 ∨ v = 5 ∨ v = 6 := by omega
  rcases this with rfl | rfl | rfl | rfl | rfl | rfl | rfl <;> exact hx

/-- `objRead` of a file that is one chunk. -/
theorem objRead_of_chunk {st st' : LState} {file : Bytes} (hne : file ≠ [])
    (h : Reads (readChunk (file.length + 1) st) file st') : objRead st file = some st' := by
  have hc := h []
  rw [List.append_nil] at hc
  unfold objRead
  cases file with
  | nil => exact absurd rfl hne
  | cons b bs =>
    simp only [List.length_cons, readChunks] at hc ⊢
    rw [hc]
    cases bs <;> rfl

theorem objRead_encode {v : Nat} (hv : v ≤ 6) {st : LState} {o : Obj} (h : o.Ok)
    (hb : st.files.length + o.files.length ≤ 4294967296) :
    objRead st (encode v o) = some (load v st o) := by
  refine objRead_of_chunk ?_ (reads_chunk hv h hb _)
  simp [encode]

theorem encode_6 (o : Obj) : encode 6 o = writeObject o := by
  have h1 : encSymbol 6 = writeSymbol := by
    funext s
    have : (if s.type = 1 ∨ s.type = 4 then [] else put32le s.value)
        = if hasValue s.type = true then put32le s.value else [] := by
      by_cases ht : s.type = 1 ∨ s.type = 4
      · rw [if_pos ht, if_neg (by rcases ht with h | h <;> simp [hasValue, h])]
      · rw [if_neg ht, if_pos (by simpa [hasValue] using ht)]
    simp [encSymbol, writeSymbol, since, List.append_assoc, this]
  have h2 : encSection 6 = writeSection := by
    funext s; simp [encSection, writeSection, since, h1]
  simp [encode, writeObject, since, h2, byte]

/-! ### Libraries of object files -/

/-- An object file: its name, the version of its format and its contents. -/
structure ObjFile where
  name : Bytes
  version : Nat
  obj : Obj

/-- A valid object file. -/
structure ObjFile.Ok (f : ObjFile) : Prop where
  name : (0 : UInt8) ∉ f.name
  version : f.version ≤ 6
  obj : f.obj.Ok
  size : (encode f.version f.obj).length < 4294967296

/-- The contents of the file. -/
def ObjFile.bytes (f : ObjFile) : Bytes := encode f.version f.obj

/-- The module in a library that holds the file. -/
def ObjFile.module (f : ObjFile) : Library.Module := ⟨f.name, f.bytes⟩

/-- The number of source files in a list of object files. -/
def totalFiles (fs : List ObjFile) : Nat := (fs.map (fun f => f.obj.files.length)).sum

theorem load_files_le (v : Nat) (st : LState) (o : Obj) :
    (load v st o).files.length ≤ st.files.length + o.files.length := by
  simp only [load]; split <;> simp

theorem reads_modules (fs : List ObjFile) (d : Nat) (st : LState) (h : ∀ f ∈ fs, f.Ok)
    (hb : st.files.length + totalFiles fs ≤ 4294967296) :
    Reads (repeatWith fs.length (fun st => do
        let _ ← str
        let _ ← u32
        readChunk (d + 1) st) st)
      ((fs.map ObjFile.module).flatMap Library.writeModule)
      (fs.foldl (fun st f => load f.version st f.obj) st) := by
  induction fs generalizing st with
  | nil => exact Reads.pure _
  | cons f fs ih =>
    have hf := h f (by simp)
    simp only [totalFiles, List.map_cons, List.sum_cons] at hb
    have hle := load_files_le f.version st f.obj
    have ih' := ih (load f.version st f.obj) (fun g hg => h g (by simp [hg]))
      (by simp only [totalFiles]; omega)
    refine Reads.cast (((reads_str hf.name).bind ((reads_u32 hf.size).bind
      (reads_chunk hf.version hf.obj (st := st) (by omega) d))).bind ih') ?_ rfl
    simp [Library.writeModule, ObjFile.module, ObjFile.bytes, List.append_assoc]

theorem objRead_library (fs : List ObjFile) (st : LState) (h : ∀ f ∈ fs, f.Ok) (hc : Word fs.length)
    (hb : st.files.length + totalFiles fs ≤ 4294967296) :
    objRead st (Library.libWrite (fs.map ObjFile.module))
      = some (fs.foldl (fun st f => load f.version st f.obj) st) := by
  have e : Library.libWrite (fs.map ObjFile.module) = [0x58, 0x4C, 0x42, 0] ++ (put32le fs.length
      ++ (fs.map ObjFile.module).flatMap Library.writeModule) := by
    simp [Library.libWrite, Library.magic]
  have key : ∀ d, Reads (readChunk (d + 2) st) (Library.libWrite (fs.map ObjFile.module))
      (fs.foldl (fun st f => load f.version st f.obj) st) := by
    intro d
    rw [e]
    refine (reads_raw [0x58, 0x4C, 0x42, 0]).bind ?_
    exact (reads_u32 hc).bind (reads_modules fs d st h hb)
  have hl : (Library.libWrite (fs.map ObjFile.module)).length
      = (Library.libWrite (fs.map ObjFile.module)).length - 1 + 1 := by
    rw [e]; simp
  refine objRead_of_chunk (by rw [e]; simp) ?_
  rw [hl]
  exact key _

theorem objRead_files (fs : List ObjFile) (st : LState) (h : ∀ f ∈ fs, f.Ok)
    (hb : st.files.length + totalFiles fs ≤ 4294967296) :
    fs.foldlM (fun st f => objRead st f.bytes) st = some (fs.foldl (fun st f => load f.version st f.obj) st) := by
  induction fs generalizing st with
  | nil => rfl
  | cons f fs ih =>
    have hf := h f (by simp)
    simp only [totalFiles, List.map_cons, List.sum_cons] at hb
    have hle := load_files_le f.version st f.obj
    rw [List.foldlM_cons]
    simp only [ObjFile.bytes]
    rw [objRead_encode hf.version hf.obj (by omega)]
    exact ih _ (fun g hg => h g (by simp [hg])) (by simp only [totalFiles]; omega)

end Verif.Object
