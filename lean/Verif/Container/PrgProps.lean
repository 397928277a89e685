import Verif.Container.Prg
import Verif.Container.PrgSpec
import Verif.Container.Props
import Verif.Image.Props
import Verif.Image.ChecksumLemmas
/-!
# C42: Commodore programs start at their entry address
-/
namespace Verif.Container
open Verif.Image (writeAt writeBinary writeAt_get)

theorem digits_length : ∀ (fuel k n : Nat), n < 10 ^ (k + 1) → (digits fuel n).length ≤ k + 1
  | 0, k, n, _ => by simp [digits]
  | fuel + 1, k, n, h => by
    rw [digits]
    by_cases hn : n < 10
    · rw [if_pos hn]; simp
    · rw [if_neg hn]
      cases k with
      | zero => simp at h; omega
      | succ k =>
        have := digits_length fuel k (n / 10) (by rw [Nat.pow_succ] at h; omega)
        rw [List.length_append, List.length_singleton]
        omega

def digitStep (acc : Option Nat) (c : UInt8) : Option Nat :=
  match acc with
  | none => none
  | some n => if 0x30 ≤ c.toNat ∧ c.toNat ≤ 0x39 then some (10 * n + (c.toNat - 0x30)) else none

theorem digitStep_digit (n d : Nat) (hd : d < 10) : digitStep (some n) (byte (0x30 + d)) = some (10 * n + d) := by
  have : (byte (0x30 + d)).toNat = 0x30 + d := by rw [byte_toNat]; omega
  unfold digitStep
  simp only
  rw [this, if_pos (by omega)]
  congr 1
  omega

theorem digits_value : ∀ (fuel n : Nat), n < 10 ^ fuel → 0 < fuel →
    (digits fuel n).foldl digitStep (some 0) = some n ∧ digits fuel n ≠ [] ∧ ∀ b ∈ digits fuel n, b ≠ 0
  | 0, n, _, h => by omega
  | fuel + 1, n, h, _ => by
    have hz : ∀ d, d < 10 → byte (0x30 + d) ≠ 0 := by
      intro d hd e
      have : (byte (0x30 + d)).toNat = 0x30 + d := by rw [byte_toNat]; omega
      rw [e] at this
      have h0 : (0 : UInt8).toNat = 0 := rfl
      omega
    rw [digits]
    by_cases hn : n < 10
    · rw [if_pos hn]
      refine ⟨?_, by simp, ?_⟩
      · rw [List.foldl_cons, List.foldl_nil, digitStep_digit 0 n hn]
        simp
      · intro b hb
        rw [List.mem_singleton] at hb
        subst hb
        exact hz n hn
    · rw [if_neg hn]
      have hf : 0 < fuel := by
        cases fuel with
        | zero => simp at h; omega
        | succ f => omega
      obtain ⟨h1, h2, h3⟩ := digits_value fuel (n / 10) (by rw [Nat.pow_succ] at h; omega) hf
      refine ⟨?_, by simp, ?_⟩
      · rw [List.foldl_append, h1, List.foldl_cons, List.foldl_nil, digitStep_digit _ _ (by omega)]
        congr 1
        omega
      · intro b hb
        rcases List.mem_append.1 hb with hb | hb
        · exact h3 b hb
        · rw [List.mem_singleton] at hb
          subst hb
          exact hz _ (by omega)

theorem parseDigits_digits {n : Nat} (h : n < 10 ^ 10) : parseDigits (digits 10 n) = some n := by
  obtain ⟨h1, h2, _⟩ := digits_value 10 n h (by omega)
  unfold parseDigits
  match hd : digits 10 n with
  | [] => exact absurd hd h2
  | b :: r =>
    rw [hd] at h1
    exact h1

theorem printed_eq {v : Int} (h0 : 0 ≤ v) (h1 : v < 100000) : printed v = digits 10 v.toNat ++ [0] := by
  unfold printed
  rw [if_neg (by omega)]
  have := digits_length 10 4 v.toNat (by omega)
  rw [List.take_of_length_le (by omega)]

/-- The line in the program: `SYS` with the digits, anything up to where the link leads, and two zeros there. -/
theorem run_stub (base link : Nat) (text junk rest : Bytes) (n : Nat) (hl : link < 65536)
    (hbase : link = base + 4 + text.length + 1 + junk.length)
    (hne : ∀ b ∈ text, b ≠ 0) (hs : sysAddress text = some n) :
    runBasic base (put16le link ++ (put16le 10 ++ (text ++ ([0] ++ (junk ++ ([0, 0] ++ rest)))))) = some n := by
  generalize hm : put16le link ++ (put16le 10 ++ (text ++ ([0] ++ (junk ++ ([0, 0] ++ rest))))) = mem
  have hdrop : mem.drop (link - base) = [0, 0] ++ rest := by
    have e : mem = (put16le link ++ put16le 10 ++ text ++ [0] ++ junk) ++ ([0, 0] ++ rest) := by
      rw [← hm]
      simp only [List.append_assoc]
    rw [e]
    have hlen : (put16le link ++ put16le 10 ++ text ++ [0] ++ junk).length = link - base := by
      simp only [List.length_append, List.length_singleton]
      simp only [put16le, List.length_cons, List.length_nil]
      omega
    rw [← hlen]
    simp
  have hsz : getSz (text ++ ([0] ++ (junk ++ ([0, 0] ++ rest)))) = some (text, junk ++ ([0, 0] ++ rest)) := by
    have := getSz_putSz (s := text) (fun h => hne 0 h rfl) (junk ++ ([0, 0] ++ rest))
    rw [← this]
    congr 1
    simp [putSz]
  unfold runBasic
  rw [← hm, get16le_put16le hl]
  simp only
  rw [get16le_put16le (by omega)]
  simp only
  rw [hsz]
  simp only
  rw [hm, if_pos]
  · exact hs
  · refine ⟨by omega, ?_⟩
    rw [← List.drop_drop, hdrop]
    rfl

/-- The digits written over the placeholder: they and their terminating zero fit before the end of the program. -/
theorem writeAt_digits (pre tail d : Bytes) (hl : d.length ≤ 5) (ht : tail.length = 6) :
    writeAt (pre ++ (tail ++ [0, 0])) pre.length (d ++ [0]) = pre ++ (d ++ ([0] ++ (tail.drop (d.length + 1) ++ [0, 0]))) := by
  have e : tail ++ [0, 0] = tail.take (d.length + 1) ++ (tail.drop (d.length + 1) ++ [0, 0]) := by
    rw [← List.append_assoc, List.take_append_drop]
  rw [e, writeAt_patch pre (tail.take (d.length + 1)) (d ++ [0]) _ (by simp; omega) (by simp)]
  simp

theorem sys_digits {n : Nat} (h : n < 10 ^ 10) : sysAddress (0x9E :: digits 10 n) = some n := by
  unfold sysAddress
  exact parseDigits_digits h

theorem bank_sys_digits {n : Nat} (h : n < 10 ^ 10) :
    sysAddress ([0xFE, 0x02, 0x30, 0x3A, 0x9E] ++ digits 10 n) = some n := by
  rw [show [0xFE, 0x02, 0x30, 0x3A, 0x9E] ++ digits 10 n = (0xFE :: 0x02 :: 0x30 :: 0x3A :: 0x9E :: digits 10 n : Bytes) from rfl]
  unfold sysAddress
  exact parseDigits_digits h

theorem byte_mod (n : Nat) : byte (n % 256) = byte n := by
  apply UInt8.toNat.inj
  rw [byte_toNat, byte_toNat]
  omega

theorem prgHeader_eq {address : Nat} {start : Int} (h0 : 0 ≤ start) (h1 : start < 100000) (hlow : address % 256 = 1) :
    ∃ junk : Bytes, prgHeader address start = put16le address ++ (put16le (address + 11) ++ (put16le 10 ++
      ((0x9E :: digits 10 start.toNat) ++ ([0] ++ (junk ++ [0, 0]))))) ∧
      (digits 10 start.toNat).length + junk.length = 5 := by
  have hlen := digits_length 10 4 start.toNat (by omega)
  have e : writeAt basicSys 1 (put8 (address / 256 % 256)) =
      (put16le (address + 11) ++ put16le 10 ++ [0x9E]) ++ ([0x31, 0x32, 0x33, 0x34, 0, 0] ++ [0, 0]) := by
    have hh : (address + 11) / 256 = address / 256 := by omega
    have hh2 : byte (address + 11) = 0x0C := by
      rw [← byte_mod, show (address + 11) % 256 = 12 by omega]
      rfl
    simp only [put16le, hh, hh2, put8, byte_mod]
    rfl
  have e2 := writeAt_digits (put16le (address + 11) ++ put16le 10 ++ [0x9E]) [0x31, 0x32, 0x33, 0x34, 0, 0]
    (digits 10 start.toNat) hlen rfl
  refine ⟨([0x31, 0x32, 0x33, 0x34, 0, 0] : Bytes).drop ((digits 10 start.toNat).length + 1), ?_, ?_⟩
  · unfold prgHeader
    rw [printed_eq h0 h1, e]
    refine (congrArg (fun x => put8 (address % 256) ++ put8 (address / 256 % 256) ++ x) e2).trans ?_
    simp only [put8, byte_mod]
    rfl
  · rw [List.length_drop]
    simp only [List.length_cons, List.length_nil]
    omega

theorem mega65Header_eq {start : Int} (h0 : 0 ≤ start) (h1 : start < 100000) :
    ∃ junk : Bytes, mega65Header start = put16le 0x2001 ++ (put16le (0x2001 + 15) ++ (put16le 10 ++
      (([0xFE, 0x02, 0x30, 0x3A, 0x9E] ++ digits 10 start.toNat) ++ ([0] ++ (junk ++ [0, 0]))))) ∧
      (digits 10 start.toNat).length + junk.length = 5 := by
  have hlen := digits_length 10 4 start.toNat (by omega)
  have e2 := writeAt_digits (put16le (0x2001 + 15) ++ put16le 10 ++ [0xFE, 0x02, 0x30, 0x3A, 0x9E])
    [0x31, 0x32, 0x33, 0x34, 0, 0] (digits 10 start.toNat) hlen rfl
  refine ⟨([0x31, 0x32, 0x33, 0x34, 0, 0] : Bytes).drop ((digits 10 start.toNat).length + 1), ?_, ?_⟩
  · unfold mega65Header
    rw [printed_eq h0 h1]
    exact (congrArg (fun x => [0x01, 0x20] ++ x) e2).trans (by simp only [List.append_assoc]; rfl)
  · rw [List.length_drop]
    simp only [List.length_cons, List.length_nil]
    omega

/-- A file that begins with the header: nothing else is written there. -/
theorem header_kept (header : Bytes) (l : List Image.Sect) (fs : Image.Files) (hf : Image.Fits header.length l)
    (ha : Image.Apart header.length l) (h : writeBinary header none l = .ok fs) :
    ∃ rest, fs none = header ++ rest := by
  have hpre : ∀ k, k < header.length → (fs none)[k]? = header[k]? := by
    intro k hk
    have h1 := (Image.C20_size_without_padding header l fs hf ha h none k).2 (Or.inl ⟨rfl, hk⟩)
    have h2 := Image.C20_rest_is_filler header none l fs hf ha h none k h1 ?_
    · rw [h2, if_pos ⟨rfl, hk⟩]
    · intro s _ ⟨p, hp, hp1, hp2⟩
      obtain ⟨-, -, -, -, -, loc, -, rfl⟩ := hp
      rw [if_pos rfl] at hp1
      omega
  refine ⟨(fs none).drop header.length, ?_⟩
  have : (fs none).take header.length = header := by
    apply List.ext_getElem?
    intro k
    by_cases hk : k < header.length
    · rw [List.getElem?_take_of_lt hk, hpre k hk]
    · rw [List.getElem?_take, if_neg hk, List.getElem?_eq_none (by omega)]
  conv => lhs; rw [← List.take_append_drop header.length (fs none), this]

/-- A loaded program: where it is loaded, what it calls, and where the sections are in memory. -/
def Runs (f : Bytes) (base stub : Nat) (start : Nat) (l : List Image.Sect) : Prop :=
  ∃ mem, loadPrg f = some (base, mem) ∧ runBasic base mem = some start ∧
    ∀ s ∈ l, s.equ = false → s.used = true → s.assigned = true → s.bss = false → s.overlay = none →
      ∀ loc, s.image = some loc → ∀ i, i < s.data.length → mem[stub + loc + i]? = s.data[i]?

theorem get16le_length {f mem : Bytes} {n : Nat} (h : get16le f = some (n, mem)) (k : Nat) : mem[k]? = f[k + 2]? := by
  match f with
  | [] => simp [get16le] at h
  | [_] => simp [get16le] at h
  | a :: b :: r =>
    simp only [get16le, Option.some.injEq, Prod.mk.injEq] at h
    rw [← h.2]
    rfl

theorem runs_of_header {header : Bytes} {base stub start : Nat} {text junk : Bytes} {l : List Image.Sect}
    {fs : Image.Files}
    (hh : header = put16le base ++ (put16le (base + (stub - 2)) ++ (put16le 10 ++ (text ++ ([0] ++ (junk ++ [0, 0]))))))
    (hlen : text.length + junk.length + 7 = stub) (hb : base + stub < 65536)
    (hne : ∀ b ∈ text, b ≠ 0) (hs : sysAddress text = some start)
    (hf : Image.Fits (stub + 2) l) (hap : Image.Apart (stub + 2) l) (h : writeBinary header none l = .ok fs) :
    Runs (fs none) base stub start l := by
  have hl : header.length = stub + 2 := by
    rw [hh]
    simp only [List.length_append, List.length_cons, List.length_nil, put16le]
    omega
  rw [← hl] at hf hap
  obtain ⟨rest, hr⟩ := header_kept header l fs hf hap h
  have hload : loadPrg (fs none) = some (base, put16le (base + (stub - 2)) ++ (put16le 10 ++ (text ++ ([0] ++
      (junk ++ ([0, 0] ++ rest)))))) := by
    unfold loadPrg
    rw [hr, hh, List.append_assoc, get16le_put16le (by omega)]
    simp only [List.append_assoc]
  refine ⟨_, hload, run_stub base _ text junk rest start (by omega) (by omega) hne hs, ?_⟩
  intro s hs h1 h2 h3 h4 h5 loc hloc i hi
  rw [get16le_length hload]
  have := Image.C20_section_at_offset header none l fs hf hap h s hs none (loc + header.length)
    ⟨h1, h2, h3, h4, h5, loc, hloc, by rw [if_pos rfl]⟩ i hi
  rw [← this]
  congr 1
  omega

/-- C42. A Commodore program is loaded at the header address, BASIC finds one line that calls the start address, and
every section is behind that, at its image location. -/
theorem C42_prg (address : Nat) (entry : Option (Option Int)) (first : Option Int) (l : List Image.Sect) (start : Int)
    (hs : Start entry first start) (h0 : 0 ≤ start) (h1 : start < 100000) (ha : address + 13 < 65536)
    (hlow : address % 256 = 1) (hf : Image.Fits 15 l) (hap : Image.Apart 15 l) :
    ∃ f, prgFile address entry first l = .ok f ∧ Runs f address 13 start.toNat l := by
  obtain ⟨junk, hh, hj⟩ := prgHeader_eq (address := address) h0 h1 hlow
  obtain ⟨-, -, hnz⟩ := digits_value 10 start.toNat (by omega) (by omega)
  unfold prgFile
  rw [startAddress_eq hs]
  refine ⟨_, rfl, runs_of_header (stub := 13) hh ?_ ha ?_ (sys_digits (by omega)) hf hap rfl⟩
  · rw [List.length_cons]; omega
  · intro b hb
    rcases List.mem_cons.1 hb with rfl | hb
    · decide
    · exact hnz b hb

/-- C42 for the MEGA65, whose programs are loaded at 0x2001. -/
theorem C42_mega65 (entry : Option (Option Int)) (first : Option Int) (l : List Image.Sect) (start : Int)
    (hs : Start entry first start) (h0 : 0 ≤ start) (h1 : start < 100000) (hf : Image.Fits 19 l)
    (hap : Image.Apart 19 l) :
    ∃ f, mega65File entry first l = .ok f ∧ Runs f 0x2001 17 start.toNat l := by
  obtain ⟨junk, hh, hj⟩ := mega65Header_eq h0 h1
  obtain ⟨-, -, hnz⟩ := digits_value 10 start.toNat (by omega) (by omega)
  unfold mega65File
  rw [startAddress_eq hs]
  refine ⟨_, rfl, runs_of_header (stub := 17) hh ?_ (by omega) ?_ (bank_sys_digits (by omega)) hf hap rfl⟩
  · simp only [List.length_append, List.length_cons, List.length_nil]; omega
  · intro b hb
    rcases List.mem_append.1 hb with hb | hb
    · clear hnz hh hf hap hs
      simp only [List.mem_cons, List.not_mem_nil, or_false] at hb
      rcases hb with rfl | rfl | rfl | rfl | rfl <;> decide
    · exact hnz b hb

/-- Without the entry symbol or without code no file is written. -/
theorem C42_start_refused (address : Nat) (entry : Option (Option Int)) (first : Option Int) (l : List Image.Sect)
    (h : ¬ ∃ start, Start entry first start) :
    prgFile address entry first l = .fail ∧ mega65File entry first l = .fail := by
  have : startAddress entry first = .fail := by
    match entry, first, h with
    | some (some v), _, h => exact absurd ⟨v, .inl rfl⟩ h
    | some none, some _, _ => rfl
    | some none, none, _ => rfl
    | none, some v, h => exact absurd ⟨v, .inr ⟨rfl, rfl⟩⟩ h
    | none, none, _ => rfl
  unfold prgFile mega65File
  rw [this]
  exact ⟨rfl, rfl⟩

def prgSects : List Image.Sect :=
  [⟨false, true, true, false, some 0, none, [0xA9, 0x01]⟩, ⟨false, true, true, false, some 4, none, [0x60]⟩]

/-- A program with two sections, on a C64. -/
example : prgFile 0x0801 none (some 2062) prgSects =
    .ok [0x01, 0x08, 0x0C, 0x08, 0x0A, 0, 0x9E, 0x32, 0x30, 0x36, 0x32, 0, 0, 0, 0, 0xA9, 0x01, 0xFF, 0xFF, 0x60] := by
  decide +kernel

example : ∃ f, prgFile 0x0801 none (some 2062) prgSects = .ok f ∧ Runs f 0x0801 13 2062 prgSects :=
  C42_prg 0x0801 none (some 2062) prgSects 2062 (.inr ⟨rfl, rfl⟩) (by decide) (by decide) (by decide) (by decide)
    (by
      refine ⟨by decide, ?_⟩
      intro s hs o p ⟨_, _, _, _, ho, loc, hl, hp⟩
      simp only [prgSects, List.mem_cons, List.not_mem_nil, or_false] at hs
      rcases hs with rfl | rfl <;> simp_all <;> omega)
    (by
      refine List.Pairwise.cons ?_ (List.pairwise_singleton _ _)
      intro t ht o p q ⟨_, _, _, _, ho, loc, hl, hp⟩ ⟨_, _, _, _, ho', loc', hl', hp'⟩
      simp only [List.mem_singleton] at ht
      subst ht
      simp_all
      omega)

/-- Negation: the link of the line is right for header addresses of the form xx01 only. With 0x0800, which a memory
layout file may ask for, BASIC reads on behind the end of the stub. -/
theorem C42_header_address : ∃ f mem, prgFile 0x0800 none (some 2061) prgSects = .ok f ∧
    loadPrg f = some (0x0800, mem) ∧ runBasic 0x0800 mem = none :=
  ⟨[0x00, 0x08, 0x0C, 0x08, 0x0A, 0, 0x9E, 0x32, 0x30, 0x36, 0x31, 0, 0, 0, 0, 0xA9, 0x01, 0xFF, 0xFF, 0x60],
    [0x0C, 0x08, 0x0A, 0, 0x9E, 0x32, 0x30, 0x36, 0x31, 0, 0, 0, 0, 0xA9, 0x01, 0xFF, 0xFF, 0x60], by decide +kernel,
    by decide +kernel, by decide +kernel⟩

end Verif.Container
