import Verif.Container.Prg
import Verif.Container.PrgSpec
import Verif.Image.Props
import Verif.Container.Props
/-!
# C43: F256 kernel user programs
-/
namespace Verif.Container
open Verif.Image (writeAt writeAll)

/-- The section is in the image at address `a`. -/
def KupPlaced (s : KupSect) (a : Nat) : Prop :=
  s.sect.equ = false ∧ s.sect.used = true ∧ s.sect.assigned = true ∧ s.sect.bss = false ∧ s.sect.image = some a

/-- The sections as the memory map of the F256 leaves them: code and data sections are placed where the CPU sees them,
in address order, one after the other, in the first 64 KiB. -/
def KupLinked (l : List KupSect) : Prop :=
  (∀ s ∈ l, s.sect.equ = false → s.sect.used = true → s.sect.bss = false →
    ∃ a, KupPlaced s a ∧ s.loc = (a : Int) ∧ a + s.sect.data.length ≤ 65536) ∧
  l.Pairwise fun s t => ∀ a b, KupPlaced s a → KupPlaced t b → a + s.sect.data.length ≤ b

/-- The section as the image writer would be given it: at its offset in the file. -/
def shift (base : Nat) (s : KupSect) : Image.Sect :=
  { s.sect with image := s.sect.image.map (· - base), overlay := none }

theorem shift_written (base : Nat) (s : KupSect) :
    Image.written (shift base s) = (Image.written s.sect).map (· - base) := by
  unfold Image.written shift
  simp only
  cases s.sect.equ <;> cases s.sect.used <;> cases s.sect.assigned <;> cases s.sect.bss <;> simp

theorem shift_placed {base : Nat} {s : KupSect} {o : Option Nat} {p : Nat} :
    Image.Placed 0 (shift base s) o p ↔ o = none ∧ ∃ a, KupPlaced s a ∧ p = a - base := by
  unfold Image.Placed KupPlaced shift
  simp only [ite_self, Nat.add_zero, Option.map_eq_some_iff]
  constructor
  · rintro ⟨h1, h2, h3, h4, rfl, loc, ⟨a, h5, rfl⟩, rfl⟩
    exact ⟨rfl, a, ⟨h1, h2, h3, h4, h5⟩, rfl⟩
  · rintro ⟨rfl, a, ⟨h1, h2, h3, h4, h5⟩, rfl⟩
    exact ⟨h1, h2, h3, h4, rfl, a - base, ⟨a, h5, rfl⟩, rfl⟩

theorem kupWritten {s : KupSect} {a : Nat} : Image.written s.sect = some a ↔ KupPlaced s a := by
  unfold Image.written KupPlaced
  cases s.sect.equ <;> cases s.sect.used <;> cases s.sect.assigned <;> cases s.sect.bss <;> simp

theorem kupSections_eq (base : Nat) : ∀ (l : List KupSect) (f g : Bytes) (fs : Image.Files), fs none = f →
    (∀ s ∈ l, ∀ a, KupPlaced s a → a ≤ 65536) → kupSections base l f = .ok g →
    g = writeAll 0 (l.map (shift base)) fs none ∧ ∀ s ∈ l, ∀ a, KupPlaced s a → base + 10 ≤ a
  | [], f, g, fs, hfs, _, h => by
    simp only [kupSections, Outcome.ok.injEq] at h
    exact ⟨by rw [← h, ← hfs]; rfl, by simp⟩
  | s :: l, f, g, fs, hfs, hb, h => by
    rw [kupSections] at h
    rw [List.map_cons, Image.writeAll, shift_written]
    match hw : Image.written s.sect with
    | none =>
      rw [hw] at h
      obtain ⟨h1, h2⟩ := kupSections_eq base l f g fs hfs (fun t ht => hb t (by simp [ht])) h
      refine ⟨h1, ?_⟩
      intro t ht a ha
      rcases List.mem_cons.1 ht with rfl | ht
      · rw [kupWritten.2 ha] at hw; cases hw
      · exact h2 t ht a ha
    | some a =>
      rw [hw] at h
      simp only at h
      have ha := hb s (by simp) a (kupWritten.1 hw)
      by_cases hlt : a < base + 10
      · rw [if_pos hlt] at h; cases h
      · rw [if_neg hlt] at h
        simp only [Option.map_some]
        have key : Image.writeSection 0 fs (shift base s) (a - base) none =
            writeAt (f ++ List.replicate (a - base - f.length) 0xFF) (a - base) s.sect.data := by
          have hov : (shift base s).overlay = none := rfl
          have hd : (shift base s).data = s.sect.data := rfl
          unfold Image.writeSection
          simp only [hov, if_true, hd, hfs]
          have e : add32 (a - base) 0 = a - base := by unfold add32; omega
          rw [e]
          unfold Image.Files.set
          rw [if_pos rfl]
          by_cases hl : a - base > f.length
          · rw [if_pos hl]
            unfold Image.fillEnd
            rw [if_pos (by omega)]
          · rw [if_neg hl, show a - base - f.length = 0 by omega]
            simp
        obtain ⟨h1, h2⟩ := kupSections_eq base l _ g _ key (fun t ht => hb t (by simp [ht])) h
        refine ⟨h1, ?_⟩
        intro t ht b hb'
        rcases List.mem_cons.1 ht with rfl | ht
        · rw [kupWritten.2 hb'] at hw
          have := Option.some.inj hw
          omega
        · exact h2 t ht b hb'

theorem kupLinked_bound {l : List KupSect} (hl : KupLinked l) {s : KupSect} (hs : s ∈ l) {a : Nat}
    (ha : KupPlaced s a) : s.loc = (a : Int) ∧ a + s.sect.data.length ≤ 65536 := by
  obtain ⟨b, hb, h1, h2⟩ := hl.1 s hs ha.1 ha.2.1 ha.2.2.2.1
  have : a = b := Option.some.inj (ha.2.2.2.2.symm.trans hb.2.2.2.2)
  subst this
  exact ⟨h1, h2⟩

/-- The last code section ends behind every placed section. -/
theorem lastCode_max {l : List KupSect} (hl : KupLinked l) {last : Int} (h : lastCode l = .ok last) {s : KupSect}
    (hs : s ∈ l) {a : Nat} (ha : KupPlaced s a) : (a : Int) + s.sect.data.length - 1 ≤ last := by
  unfold lastCode at h
  match ht : (codeSections l).getLast? with
  | none => rw [ht] at h; cases h
  | some t =>
    rw [ht] at h
    simp only at h
    have hsc : s ∈ codeSections l := by
      unfold codeSections
      rw [List.mem_filter]
      simp [hs, ha.1, ha.2.1, ha.2.2.2.1]
    obtain ⟨init, hinit⟩ := List.getLast?_eq_some_iff.1 ht
    have htc : t ∈ codeSections l := by rw [hinit]; simp
    have htl : t ∈ l := (List.mem_filter.1 htc).1
    have htb := (List.mem_filter.1 htc).2
    simp only [Bool.and_eq_true, Bool.not_eq_true'] at htb
    obtain ⟨b, hb, hloc, -⟩ := hl.1 t htl htb.1.2 htb.1.1 htb.2
    have hp : (codeSections l).Pairwise fun s t => ∀ a b, KupPlaced s a → KupPlaced t b → a + s.sect.data.length ≤ b :=
      hl.2.sublist List.filter_sublist
    have hlast : last = t.loc + t.sect.data.length - 1 := by
      split at h <;> cases h; rfl
    rw [hinit] at hsc
    rcases List.mem_append.1 hsc with hsi | hst
    · rw [hinit, List.pairwise_append] at hp
      have := hp.2.2 s hsi t (by simp) a b ha hb
      omega
    · rw [List.mem_singleton] at hst
      subst hst
      have := (kupLinked_bound hl hs ha).1
      omega

/-- A kernel user program: the header gives the blocks, the first slot and the entry address; block `k` of the file is
mapped to slot `first + k`, 8 KiB each, and every placed section is then at its address. -/
theorem C43_kup (entry : Option (Option Int)) (pad : Bool) (l : List KupSect) (f : Bytes) (hl : KupLinked l)
    (h : kupFile entry pad l = .ok f) :
    ∃ (start : Int) (blocks slot : Nat), entry = some (some start) ∧ 12 ≤ start ∧
      (start < 65536 → kupHeader f = some (blocks, slot, start.toNat)) ∧ 1 ≤ blocks ∧ blocks ≤ 4 ∧ 1 ≤ slot ∧
      (∀ s ∈ l, ∀ a, KupPlaced s a → slot * 8192 + 10 ≤ a ∧ a + s.sect.data.length ≤ (slot + blocks) * 8192 ∧
        ∀ i, i < s.sect.data.length → f[a + i - slot * 8192]? = s.sect.data[i]?) ∧
      (∀ k, 10 ≤ k → k < f.length → (∀ s ∈ l, ∀ a, KupPlaced s a → ¬ (a ≤ slot * 8192 + k ∧
        slot * 8192 + k < a + s.sect.data.length)) → f[k]? = some 0xFF) ∧
      (pad = false → f.length ≤ blocks * 8192) ∧ (pad = true → 8192 ∣ f.length) := by
  unfold kupFile at h
  match entry, h with
  | none, h => cases h
  | some none, h => cases h
  | some (some start), h =>
  simp only at h
  match hfirst : firstCode l, h with
  | .fail, h => cases h
  | .ub, h => cases h
  | .ok first, h =>
  simp only at h
  match hlast : lastCode l, h with
  | .fail, h => cases h
  | .ub, h => cases h
  | .ok last, h =>
  simp only at h
  by_cases c1 : start < 12
  · rw [if_pos c1] at h; cases h
  rw [if_neg c1] at h
  by_cases c2 : first / 8192 = 0
  · rw [if_pos c2] at h; cases h
  rw [if_neg c2] at h
  by_cases c3 : last / 8192 - first / 8192 + 1 > 4
  · rw [if_pos c3] at h; cases h
  rw [if_neg c3] at h
  generalize hH : put16le 0x56F2 ++ put8 ((last / 8192 - first / 8192 + 1) % 256).toNat ++ put8 (first / 8192 % 256).toNat ++
    put16le (u16 start) ++ [0, 0, 0, 0] = H at h
  have hHl : H.length = 10 := by rw [← hH]; rfl
  match hks : kupSections (first / 8192 * 8192).toNat l H, h with
  | .fail, h => cases h
  | .ub, h => cases h
  | .ok g, h =>
  simp only [Outcome.ok.injEq] at h
  -- the first code section
  obtain ⟨s0, hs0, a0, ha0, hloc0⟩ : ∃ s ∈ l, ∃ a, KupPlaced s a ∧ first = (a : Int) := by
    unfold firstCode at hfirst
    match hh : (codeSections l).head? with
    | none => rw [hh] at hfirst; cases hfirst
    | some t =>
      rw [hh] at hfirst
      simp only [Outcome.ok.injEq] at hfirst
      have htc := List.mem_of_head? hh
      have htb := (List.mem_filter.1 htc).2
      simp only [Bool.and_eq_true, Bool.not_eq_true'] at htb
      obtain ⟨a, ha, h1, -⟩ := hl.1 t (List.mem_filter.1 htc).1 htb.1.2 htb.1.1 htb.2
      exact ⟨t, (List.mem_filter.1 htc).1, a, ha, by omega⟩
  have hb0 := kupLinked_bound hl hs0 ha0
  obtain ⟨slot, hslot⟩ : ∃ slot : Nat, first / 8192 = (slot : Int) := ⟨(first / 8192).toNat, by omega⟩
  obtain ⟨hg, hbase⟩ := kupSections_eq (first / 8192 * 8192).toNat l H g (Image.Files.set (fun _ => []) none H) rfl
    (fun s hs a ha => by
      have := kupLinked_bound hl hs ha
      omega) hks
  rw [show (first / 8192 * 8192).toNat = slot * 8192 by omega] at hg hbase
  have hl0 := lastCode_max hl hlast hs0 ha0
  have hge := hbase s0 hs0 a0 ha0
  obtain ⟨blocks, hblocks⟩ : ∃ blocks : Nat, last / 8192 - first / 8192 + 1 = (blocks : Int) :=
    ⟨(last / 8192 - first / 8192 + 1).toNat, by omega⟩
  have hmax : ∀ s ∈ l, ∀ a, KupPlaced s a → a + s.sect.data.length ≤ (slot + blocks) * 8192 := by
    intro s hs a ha
    have := lastCode_max hl hlast hs ha
    omega
  have hfits : Image.Fits 0 (l.map (shift (slot * 8192))) := by
    refine ⟨by decide, ?_⟩
    intro s hs o p hp
    obtain ⟨t, ht, rfl⟩ := List.mem_map.1 hs
    obtain ⟨-, a, ha, rfl⟩ := shift_placed.1 hp
    have := (kupLinked_bound hl ht ha).2
    show a - slot * 8192 + t.sect.data.length < 2147483648
    omega
  have hapart : Image.Apart 0 (l.map (shift (slot * 8192))) := by
    unfold Image.Apart
    rw [List.pairwise_map]
    refine hl.2.imp_of_mem ?_
    intro s t hs ht hst o p q hp hq
    obtain ⟨-, a, ha, rfl⟩ := shift_placed.1 hp
    obtain ⟨-, b, hb, rfl⟩ := shift_placed.1 hq
    have h1 := hst a b ha hb
    have h2 := hbase s hs a ha
    left
    show a - slot * 8192 + s.sect.data.length ≤ b - slot * 8192
    omega
  have hget := fun k => Image.writeAll_get _ (Image.Files.set (fun _ => []) none H) hfits hapart none k
  rw [← hg] at hget
  have hfs : (Image.Files.set (fun _ => []) none H) none = H := rfl
  rw [hfs, hHl] at hget
  -- the header is not overwritten
  have hcov : ∀ k, (∀ s ∈ l, ∀ a, KupPlaced s a → ¬ (a ≤ slot * 8192 + k ∧ slot * 8192 + k < a + s.sect.data.length)) →
      ∀ s ∈ l.map (shift (slot * 8192)), ¬ Image.Covers 0 s none k := by
    intro k hk s hs ⟨p, hp, h1, h2⟩
    obtain ⟨t, ht, rfl⟩ := List.mem_map.1 hs
    obtain ⟨-, a, ha, rfl⟩ := shift_placed.1 hp
    have h3 := hbase t ht a ha
    have h4 : (shift (slot * 8192) t).data.length = t.sect.data.length := rfl
    exact hk t ht a ha ⟨by omega, by omega⟩
  have hhead : ∀ k, k < 10 → g[k]? = H[k]? := by
    intro k hk
    have := (hget k).2 (hcov k (fun s hs a ha hc => by have := hbase s hs a ha; omega))
    rw [this, if_pos hk]
  have hsec : ∀ s ∈ l, ∀ a, KupPlaced s a → ∀ i, i < s.sect.data.length → g[a + i - slot * 8192]? = s.sect.data[i]? := by
    intro s hs a ha i hi
    have h1 := hbase s hs a ha
    have h4 : (shift (slot * 8192) s).data = s.sect.data := rfl
    have := (hget (a + i - slot * 8192)).1 (shift (slot * 8192) s) (List.mem_map.2 ⟨s, hs, rfl⟩) (a - slot * 8192)
      (shift_placed.2 ⟨rfl, a, ha, rfl⟩) (by omega) (by rw [h4]; omega)
    rw [this, h4]
    congr 1
    omega
  have hrest : ∀ k, 10 ≤ k → k < g.length → (∀ s ∈ l, ∀ a, KupPlaced s a → ¬ (a ≤ slot * 8192 + k ∧
        slot * 8192 + k < a + s.sect.data.length)) → g[k]? = some 0xFF := by
    intro k hk hkl hc
    have := (hget k).2 (hcov k hc)
    rw [if_neg (by omega)] at this
    split at this
    · exact this
    · rw [List.getElem?_eq_none_iff] at this; omega
  have hlen : g.length ≤ blocks * 8192 := by
    refine Nat.le_of_not_lt fun hc => ?_
    have := (hget (blocks * 8192)).2 (hcov _ (fun s hs a ha h => by
      have h1 := hmax s hs a ha
      omega))
    rw [if_neg (by omega), if_neg, List.getElem?_eq_none_iff] at this
    · omega
    · rintro ⟨s, hs, p, hp, hlt⟩
      obtain ⟨t, ht, rfl⟩ := List.mem_map.1 hs
      obtain ⟨-, a, ha, rfl⟩ := shift_placed.1 hp
      have h1 := hmax t ht a ha
      omega
  have hg10 : 10 ≤ g.length := by
    refine Nat.le_of_not_lt fun hc => ?_
    have := hhead 9 (by omega)
    rw [List.getElem?_eq_none (by omega)] at this
    have h2 := List.getElem?_eq_none_iff.1 this.symm
    omega
  obtain ⟨n, hfn, hn⟩ : ∃ n, f = g ++ List.replicate n 0xFF ∧ n = if pad then 8192 - g.length % 8192 else 0 := by
    cases pad with
    | true => exact ⟨_, h.symm, rfl⟩
    | false => exact ⟨0, by rw [← h]; simp, rfl⟩
  have happ : ∀ k, k < g.length → f[k]? = g[k]? := by
    intro k hk
    rw [hfn, List.getElem?_append_left hk]
  have hfl : f.length = g.length + n := by rw [hfn]; simp
  refine ⟨start, blocks, slot, rfl, by omega, ?_, by omega, by omega, by omega, ?_, ?_, ?_, ?_⟩
  · intro hst
    have htake : f = H ++ f.drop 10 := by
      conv => lhs; rw [← List.take_append_drop 10 f]
      congr 1
      apply List.ext_getElem?
      intro k
      by_cases hk : k < 10
      · rw [List.getElem?_take_of_lt hk, happ k (by omega), hhead k hk]
      · rw [List.getElem?_take, if_neg hk, List.getElem?_eq_none (by omega)]
    rw [htake, ← hH]
    unfold kupHeader
    simp only [List.append_assoc]
    rw [get16le_put16le (by omega)]
    simp only
    rw [get8_put8 (by omega)]
    simp only
    rw [get8_put8 (by omega)]
    simp only
    rw [u16_eq (by omega) hst, get16le_put16le (by omega)]
    simp only [Option.map_some, Option.some.injEq, Prod.mk.injEq, and_true]
    omega
  · intro s hs a ha
    refine ⟨hbase s hs a ha, hmax s hs a ha, ?_⟩
    intro i hi
    rw [happ]
    · exact hsec s hs a ha i hi
    · have h1 := hsec s hs a ha i hi
      rw [List.getElem?_eq_getElem hi] at h1
      exact (List.getElem?_eq_some_iff.1 h1).1
  · intro k hk hkl hc
    by_cases hkg : k < g.length
    · rw [happ k hkg]; exact hrest k hk hkg hc
    · rw [hfn, List.getElem?_append_right (by omega), List.getElem?_replicate, if_pos (by omega)]
  · intro hp
    rw [hp] at hn
    simp at hn
    omega
  · intro hp
    rw [hp, if_pos rfl] at hn
    omega

theorem kupSections_ok (base : Nat) : ∀ (l : List KupSect) (f : Bytes),
    (∀ s ∈ l, ∀ a, KupPlaced s a → base + 10 ≤ a) → ∃ g, kupSections base l f = .ok g
  | [], f, _ => ⟨f, rfl⟩
  | s :: l, f, h => by
    rw [kupSections]
    match hw : Image.written s.sect with
    | none => exact kupSections_ok base l f fun t ht => h t (by simp [ht])
    | some a =>
      simp only
      have := h s (by simp) a (kupWritten.1 hw)
      rw [if_neg (by omega)]
      exact kupSections_ok base l _ fun t ht => h t (by simp [ht])

theorem codeSections_placed {l : List KupSect} (hl : KupLinked l) {s : KupSect} (h : s ∈ codeSections l) :
    s ∈ l ∧ ∃ a, KupPlaced s a ∧ s.loc = (a : Int) := by
  have htb := (List.mem_filter.1 h).2
  simp only [Bool.and_eq_true, Bool.not_eq_true'] at htb
  obtain ⟨a, ha, h1, -⟩ := hl.1 s (List.mem_filter.1 h).1 htb.1.2 htb.1.1 htb.2
  exact ⟨(List.mem_filter.1 h).1, a, ha, h1⟩

/-- A program is written if it has an entry address behind the header and name, starts behind the header of a slot
other than 0, and needs at most four slots. -/
theorem C43_written (start : Int) (pad : Bool) (l : List KupSect) (hl : KupLinked l) (hs : 12 ≤ start)
    (slot : Nat) (hslot : 1 ≤ slot)
    (hall : ∀ s ∈ l, ∀ a, KupPlaced s a → slot * 8192 + 10 ≤ a ∧ a + s.sect.data.length ≤ (slot + 4) * 8192)
    (hfirst : ∃ s ∈ l, ∃ a, KupPlaced s a ∧ a < (slot + 1) * 8192) :
    ∃ f, kupFile (some (some start)) pad l = .ok f := by
  obtain ⟨s, hsl, a, ha, hlt⟩ := hfirst
  have hsc : s ∈ codeSections l := by
    unfold codeSections
    rw [List.mem_filter]
    simp [hsl, ha.1, ha.2.1, ha.2.2.2.1]
  have hp : (codeSections l).Pairwise fun s t => ∀ a b, KupPlaced s a → KupPlaced t b → a + s.sect.data.length ≤ b :=
    hl.2.sublist List.filter_sublist
  obtain ⟨first, hf1, hf2⟩ : ∃ first, firstCode l = .ok first ∧ first / 8192 = slot := by
    unfold firstCode
    match hh : codeSections l with
    | [] => rw [hh] at hsc; cases hsc
    | t :: r =>
      refine ⟨_, rfl, ?_⟩
      rw [hh] at hsc hp
      obtain ⟨htl, b, hb, hloc⟩ := codeSections_placed hl (s := t) (by rw [hh]; simp)
      have h1 := (hall t htl b hb).1
      rcases List.mem_cons.1 hsc with rfl | hsr
      · have : a = b := Option.some.inj (ha.2.2.2.2.symm.trans hb.2.2.2.2)
        omega
      · have := (List.pairwise_cons.1 hp).1 s hsr b a hb ha
        omega
  obtain ⟨last, hl1, hl2⟩ : ∃ last, lastCode l = .ok last ∧ last / 8192 - slot + 1 ≤ 4 := by
    unfold lastCode
    match hh : (codeSections l).getLast? with
    | none =>
      rw [List.getLast?_eq_none_iff] at hh
      rw [hh] at hsc; cases hsc
    | some t =>
      obtain ⟨init, hinit⟩ := List.getLast?_eq_some_iff.1 hh
      obtain ⟨htl, b, hb, hloc⟩ := codeSections_placed hl (s := t) (by rw [hinit]; simp)
      have h1 := hall t htl b hb
      simp only
      rw [if_neg (by omega)]
      exact ⟨_, rfl, by omega⟩
  unfold kupFile
  simp only [hf1, hl1]
  rw [if_neg (by omega), if_neg (by omega), if_neg (by omega)]
  obtain ⟨g, hg⟩ := kupSections_ok (first / 8192 * 8192).toNat l
    (put16le 22258 ++ put8 ((last / 8192 - first / 8192 + 1) % 256).toNat ++ put8 (first / 8192 % 256).toNat ++
      put16le (u16 start) ++ [0, 0, 0, 0])
    (fun s hs a ha => by have := (hall s hs a ha).1; omega)
  rw [hg]
  exact ⟨_, rfl⟩

def kupSects : List KupSect :=
  [⟨⟨false, true, true, false, some 0x200A, none, [0x41, 0x00]⟩, 0x200A⟩,
   ⟨⟨false, true, true, false, some 0x2010, none, [0x60]⟩, 0x2010⟩,
   ⟨⟨false, true, true, true, none, none, []⟩, 0x300⟩]

example : kupFile (some (some 0x2010)) false kupSects =
    .ok [0xF2, 0x56, 1, 1, 0x10, 0x20, 0, 0, 0, 0, 0x41, 0x00, 0xFF, 0xFF, 0xFF, 0xFF, 0x60] := by decide +kernel

theorem kupSects_linked : KupLinked kupSects := by
  refine ⟨?_, ?_⟩
  · intro s hs h1 h2 h3
    simp only [kupSects, List.mem_cons, List.not_mem_nil, or_false] at hs
    rcases hs with rfl | rfl | rfl
    · exact ⟨0x200A, ⟨rfl, rfl, rfl, rfl, rfl⟩, rfl, by decide⟩
    · exact ⟨0x2010, ⟨rfl, rfl, rfl, rfl, rfl⟩, rfl, by decide⟩
    · cases h3
  · unfold kupSects
    simp only [List.pairwise_cons, List.mem_cons, List.not_mem_nil, or_false, forall_eq_or_imp, forall_eq]
    refine ⟨⟨?_, ?_⟩, ?_, ?_⟩ <;> simp [KupPlaced]

/-- Negation: the padded variant fills the last slot. A program that fills its slots exactly gets a further slot of
filler, one more than its header says. -/
theorem C43_full_slot_padded (d : Bytes) (hd : d.length = 8192 - 10) :
    ∃ f, kupFile (some (some 0x200A)) true [⟨⟨false, true, true, false, some 0x200A, none, d⟩, 0x200A⟩] = .ok f ∧
      f.length = 2 * 8192 ∧ kupHeader f = some (1, 1, 0x200A) := by
  have hne : d ≠ [] := by intro e; rw [e] at hd; cases hd
  have h1 : ((0x200A : Int) + (d.length : Int) - 1) = 16383 := by omega
  refine ⟨[0xF2, 0x56, 1, 1, 0x0A, 0x20, 0, 0, 0, 0] ++ d ++ List.replicate 8192 0xFF, ?_, ?_, rfl⟩
  · have hk : ∀ H : Bytes, H.length = 10 →
        kupSections 8192 [⟨⟨false, true, true, false, some 0x200A, none, d⟩, 0x200A⟩] H = .ok (H ++ d) := by
      intro H hH
      rw [kupSections]
      show (if 0x200A < 8192 + 10 then _ else _) = _
      rw [if_neg (by decide), kupSections]
      simp only [hH]
      congr 1
      unfold writeAt
      rw [if_neg hne]
      simp [hH, hd]
      rw [List.take_of_length_le (by omega), List.drop_of_length_le (by omega), List.append_nil]
    unfold kupFile firstCode lastCode codeSections
    simp only [List.filter_cons, List.filter_nil, Bool.not_false, Bool.and_self, if_true, List.head?_cons,
      List.getLast?_singleton, h1]
    rw [if_neg (by decide)]
    simp only
    rw [if_neg (by decide), if_neg (by decide), if_neg (by decide), show ((0x200A : Int) / 8192 * 8192).toNat = 8192 by decide,
      hk _ (by rfl)]
    simp only [List.length_append, hd]
    rfl
  · rw [List.length_append, List.length_append, hd, List.length_replicate]
    rfl

end Verif.Container
