import Verif.Elf.Spec
/-!
# Reading what has been written at a place of a file
-/
namespace Verif.Elf
open Verif.Expr (Src)

theorem ok_bind (a : α) (f : α → Outcome β) : (Outcome.ok a).bind f = f a := rfl

theorem bind_ok {x : Outcome α} {f : α → Outcome β} {b : β} (h : x.bind f = .ok b) : ∃ a, x = .ok a ∧ f a = .ok b := by
  cases x with
  | ok a => exact ⟨a, rfl, h⟩
  | fail => cases h
  | ub => cases h

/-- At position `off` of the file are the bytes `bs`. -/
def At (file : Bytes) (off : Nat) (bs : Bytes) : Prop := bs <+: file.drop off

theorem At.mono {f f' : Bytes} (h : f <+: f') {off : Nat} {bs : Bytes} (ha : At f off bs) : At f' off bs := by
  obtain ⟨t, rfl⟩ := h
  obtain ⟨u, hu⟩ := ha
  by_cases hl : off ≤ f.length
  · exact ⟨u ++ t, by rw [List.drop_append_of_le_length hl, ← hu, List.append_assoc]⟩
  · rw [List.drop_eq_nil_of_le (by omega)] at hu
    obtain ⟨rfl, rfl⟩ := List.append_eq_nil_iff.1 hu
    exact List.nil_prefix

theorem at_end (f bs : Bytes) : At (f ++ bs) f.length bs := by
  refine ⟨[], ?_⟩
  rw [List.drop_append_of_le_length (Nat.le_refl _), List.drop_length]
  simp

theorem At.left {f a b : Bytes} {off : Nat} (h : At f off (a ++ b)) : At f off a := by
  obtain ⟨t, ht⟩ := h
  exact ⟨b ++ t, by rw [← ht, List.append_assoc]⟩

theorem At.right {f a b : Bytes} {off : Nat} (h : At f off (a ++ b)) : At f (off + a.length) b := by
  obtain ⟨t, ht⟩ := h
  refine ⟨t, ?_⟩
  rw [← List.drop_drop, ← ht, List.append_assoc, List.drop_left]

theorem At.swap {h h' r bs : Bytes} {off : Nat} (ha : At (h ++ r) off bs) (hl : h.length = h'.length) (ho : h.length ≤ off) :
    At (h' ++ r) off bs := by
  unfold At at *
  rw [List.drop_append, List.drop_eq_nil_of_le ho] at ha
  rw [List.drop_append, List.drop_eq_nil_of_le (by omega), ← hl]
  exact ha

theorem rd_at {f w : Bytes} {off : Nat} {p : Parser α} {a : α} (h : At f off w) (hr : Reads p w a) : rd f off p = .ok a := by
  obtain ⟨t, ht⟩ := h
  unfold rd
  rw [← ht, hr t]

theorem mapO_ok {f : α → Outcome β} {g : α → β} {l : List α} (h : ∀ a ∈ l, f a = .ok (g a)) : mapO f l = .ok (l.map g) := by
  induction l with
  | nil => rfl
  | cons a l ih =>
    rw [mapO, h a (by simp), ok_bind, ih (fun b hb => h b (by simp [hb])), ok_bind]
    rfl

theorem mapO_append {f : α → Outcome β} {l m : List α} {l' m' : List β} (hl : mapO f l = .ok l') (hm : mapO f m = .ok m') :
    mapO f (l ++ m) = .ok (l' ++ m') := by
  induction l generalizing l' with
  | nil => cases hl; exact hm
  | cons a l ih =>
    rw [mapO] at hl
    obtain ⟨b, hb, hl⟩ := bind_ok hl
    obtain ⟨bs, hbs, hl⟩ := bind_ok hl
    cases hl
    rw [List.cons_append, mapO, hb, ok_bind, ih hbs, ok_bind]
    rfl

theorem mapO_cons {f : α → Outcome β} {a : α} {l : List α} {b : β} {l' : List β} (ha : f a = .ok b) (hl : mapO f l = .ok l') :
    mapO f (a :: l) = .ok (b :: l') := by
  rw [mapO, ha, ok_bind, hl, ok_bind]

/-- A table of records of the same size. -/
theorem read_records {f : Bytes} {p : Parser α} {put : β → Bytes} {g : β → α} {n : Nat} :
    ∀ {l : List β} {off : Nat}, (∀ b ∈ l, (put b).length = n) → (∀ b ∈ l, Reads p (put b) (g b)) → At f off (l.flatMap put) →
      ∀ start, mapO (fun i => rd f (off + (i - start) * n) p) (List.range' start l.length) = .ok (l.map g) := by
  intro l
  induction l with
  | nil => intro off _ _ _ start; rfl
  | cons b l ih =>
    intro off hn hr ha start
    rw [List.flatMap_cons] at ha
    rw [List.length_cons, List.range'_succ, List.map_cons]
    refine mapO_cons (by rw [Nat.sub_self, Nat.zero_mul, Nat.add_zero]; exact rd_at ha.left (hr b (by simp))) ?_
    have := ih (off := off + n) (fun b hb => hn b (by simp [hb])) (fun b hb => hr b (by simp [hb]))
      (by rw [← hn b (by simp)]; exact ha.right) (start + 1)
    rw [← this]
    have : ∀ l : List Nat, (∀ i ∈ l, start + 1 ≤ i) →
        mapO (fun i => rd f (off + (i - start) * n) p) l = mapO (fun i => rd f (off + n + (i - (start + 1)) * n) p) l := by
      intro l
      induction l with
      | nil => intro _; rfl
      | cons i l ih' =>
        intro hi
        have h1 := hi i (by simp)
        rw [mapO, mapO, ih' (fun j hj => hi j (by simp [hj]))]
        have e : off + (i - start) * n = off + n + (i - (start + 1)) * n := by
          obtain ⟨d, rfl⟩ := Nat.le.dest h1
          rw [show start + 1 + d - start = d + 1 from by omega, show start + 1 + d - (start + 1) = d from by omega, Nat.succ_mul]
          omega
        rw [e]
    exact this _ (fun i hi => (List.mem_range'_1.1 hi).1)

theorem read_table {f : Bytes} {p : Parser α} {put : β → Bytes} {g : β → α} {n : Nat} {l : List β} {off : Nat}
    (hn : ∀ b ∈ l, (put b).length = n) (hr : ∀ b ∈ l, Reads p (put b) (g b)) (ha : At f off (l.flatMap put)) :
    mapO (fun i => rd f (off + i * n) p) (List.range l.length) = .ok (l.map g) := by
  have := read_records hn hr ha 0
  rw [List.range_eq_range']
  exact this

theorem length_flatMap {put : β → Bytes} {n : Nat} {l : List β} (hn : ∀ b ∈ l, (put b).length = n) :
    (l.flatMap put).length = l.length * n := by
  induction l with
  | nil => simp
  | cons b l ih =>
    rw [List.flatMap_cons, List.length_append, hn b (by simp), ih (fun b hb => hn b (by simp [hb])), List.length_cons, Nat.succ_mul]
    omega

theorem getString_at {t s : Bytes} {off : Nat} (h : At t off (putSz s)) (hs : (0 : UInt8) ∉ s) : getString t off = .ok s := by
  obtain ⟨r, hr⟩ := h
  have hl : off < t.length := by
    have : (t.drop off).length ≠ 0 := by rw [← hr, List.length_append, length_putSz]; omega
    rw [List.length_drop] at this
    omega
  unfold getString
  rw [if_neg (by omega), ← hr, getSz_putSz hs]

/-! ### Numbers -/

theorem length_putHalf (be : Bool) (n : Nat) : (putHalf be n).length = 2 := by cases be <;> rfl
theorem length_putWord (be : Bool) (n : Nat) : (putWord be n).length = 4 := by cases be <;> rfl

theorem reads_half (be : Bool) {n : Nat} (h : n < 65536) : Reads (half be) (putHalf be n) n := by
  intro r
  cases be
  · exact get16le_put16le h r
  · exact get16be_put16be h r

theorem reads_word (be : Bool) {n : Nat} (h : n < W32) : Reads (word be) (putWord be n) n := by
  intro r
  cases be
  · exact get32le_put32le h r
  · exact get32be_put32be h r

theorem reads_u8 {n : Nat} (h : n < 256) : Reads u8 (put8 n) n := fun r => get8_put8 h r

theorem reads_raw (d : Bytes) : Reads (raw d.length) d d := fun r => getN_append d r

theorem length_shdr (be : Bool) (h : Shdr) : (h.put be).length = 40 := by
  simp only [Shdr.put, List.length_append, length_putWord]

theorem length_symRecord (be : Bool) (a b c d : Nat) : (symRecord be a b c d).length = 16 := by
  simp only [symRecord, List.length_append, length_putWord, length_putHalf, put8, List.length_cons, List.length_nil]

theorem length_rela (be : Bool) (r : Rela) : (r.put be).length = 12 := by
  simp only [Rela.put, List.length_append, length_putWord]

theorem reads_shdr (be : Bool) (h : Shdr) (h1 : h.name < W32) (h2 : h.type < W32) (h3 : h.flags < W32) (h4 : h.addr < W32)
    (h5 : h.offset < W32) (h6 : h.size < W32) (h7 : h.link < W32) (h8 : h.info < W32) (h9 : h.align < W32) (h10 : h.entsize < W32) :
    Reads (shdr be) (h.put be) h := by
  unfold shdr Shdr.put
  refine (reads_word be h1).bind ?_
  refine (reads_word be h2).bind ?_
  refine (reads_word be h3).bind ?_
  refine (reads_word be h4).bind ?_
  refine (reads_word be h5).bind ?_
  refine (reads_word be h6).bind ?_
  refine (reads_word be h7).bind ?_
  refine (reads_word be h8).bind ?_
  refine (reads_word be h9).bind ?_
  exact (List.append_nil (putWord be h.entsize)) ▸ (reads_word be h10).bind (Reads.pure _)

theorem reads_esym (be : Bool) {name value info shndx : Nat} (h1 : name < W32) (h2 : value < W32) (h3 : info < 256) (h4 : shndx < 65536) :
    Reads (esym be) (symRecord be name value info shndx) ⟨name, value, info / 16, info % 16, shndx⟩ := by
  unfold esym symRecord
  refine (reads_word be h1).bind ?_
  refine (reads_word be h2).bind ?_
  refine (reads_word be (by decide : (0 : Nat) < W32)).bind ?_
  refine (reads_u8 h3).bind ?_
  refine (reads_u8 (by decide : (0 : Nat) < 256)).bind ?_
  exact (List.append_nil (putHalf be shndx)) ▸ (reads_half be h4).bind (Reads.pure _)

theorem reads_erela (be : Bool) (r : Rela) (h1 : r.offset < W32) (h2 : r.info < W32) (h3 : r.addend < W32) :
    Reads (erela be) (r.put be) ⟨r.offset, r.info / 256, r.info % 256, r.addend⟩ := by
  unfold erela Rela.put
  refine (reads_word be h1).bind ?_
  refine (reads_word be h2).bind ?_
  exact (List.append_nil (putWord be r.addend)) ▸ (reads_word be h3).bind (Reads.pure _)

/-! ### The header of the file -/

theorem length_elfHeader (be : Bool) (a b c : Nat) : (elfHeader be a b c).length = 52 := by
  simp only [elfHeader, List.length_append, length_putWord, length_putHalf, List.length_cons, List.length_nil]

theorem overwritten (be : Bool) (rest : Bytes) (shoff shnum : Nat) :
    overwrite (overwrite (overwrite (elfHeader be 0 0 0 ++ rest) 50 (putHalf be 2)) 32 (putWord be shoff)) 48 (putHalf be shnum) =
      elfHeader be shoff shnum 2 ++ rest := by
  cases be <;> rfl

theorem readHeader_ok (be : Bool) {shoff shnum : Nat} (rest : Bytes) (h1 : shoff < W32) (h2 : shnum < 65536) :
    readHeader (elfHeader be shoff shnum 2 ++ rest) = .ok (be, shoff, 40, shnum, 2) := by
  have hn : Reads (headerNumbers be)
      (putHalf be 1 ++ (putHalf be 4 ++ (putWord be 1 ++ (putWord be 0 ++ (putWord be 0 ++ (putWord be shoff ++ (putWord be 0 ++
      (putHalf be 52 ++ (putHalf be 0 ++ (putHalf be 0 ++ (putHalf be 40 ++ (putHalf be shnum ++ putHalf be 2))))))))))))
      (1, 4, 1, shoff, 52, 40, shnum, 2) := by
    unfold headerNumbers
    refine (reads_half be (by decide)).bind ?_
    refine (reads_half be (by decide)).bind ?_
    refine (reads_word be (by decide)).bind ?_
    refine (reads_word be (by decide)).bind ?_
    refine (reads_word be (by decide)).bind ?_
    refine (reads_word be h1).bind ?_
    refine (reads_word be (by decide)).bind ?_
    refine (reads_half be (by decide)).bind ?_
    refine (reads_half be (by decide)).bind ?_
    refine (reads_half be (by decide)).bind ?_
    refine (reads_half be (by decide)).bind ?_
    refine (reads_half be h2).bind ?_
    exact (List.append_nil (putHalf be 2)) ▸ (reads_half be (by decide)).bind (Reads.pure _)
  have h16 : rd (elfHeader be shoff shnum 2 ++ rest) 16 (headerNumbers be) = .ok (1, 4, 1, shoff, 52, 40, shnum, 2) :=
    rd_at ⟨rest, by cases be <;> rfl⟩ hn
  have h4 : rd (elfHeader be shoff shnum 2 ++ rest) 4 threeBytes = .ok (1, if be then 2 else 1, 1) := by
    cases be <;> rfl
  unfold readHeader
  rw [h4, ok_bind]
  have hbe : decide ((if be then 2 else 1) = 2) = be := by cases be <;> rfl
  simp only [hbe]
  rw [h16, ok_bind]
  cases be <;> rfl

end Verif.Elf
