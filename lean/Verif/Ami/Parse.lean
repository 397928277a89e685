import Verif.Ami.Memory
import Verif.Container.AmigaProps
/-! What the reader makes of the blocks that are written. -/
namespace Verif.Ami
open Verif.Expr (u32)
open Verif.Container.Amiga (padded longs_flatMap enc GroupOk relocs_enc length_padded)

theorem takeWhile_zeros {s : Bytes} (h : (0 : UInt8) ∉ s) (k : Nat) : (s ++ List.replicate k 0).takeWhile (· ≠ 0) = s := by
  induction s with
  | nil => cases k <;> rfl
  | cons a s ih =>
    have ha : a ≠ 0 := fun e => h (by simp [e])
    rw [List.cons_append, List.takeWhile_cons_of_pos (by simpa using ha), ih fun e => h (by simp [e])]

theorem name_padded {s : Bytes} (h : (0 : UInt8) ∉ s) (r : Bytes) : name ((s.length + 3) / 4) (padded s ++ r) = some (s, r) := by
  unfold name
  rw [← length_padded, getN_append]
  show some ((padded s).takeWhile (· ≠ 0), r) = _
  unfold padded
  rw [takeWhile_zeros h]

theorem u32_lt (x : Int) : u32 x < W32 := by unfold u32; omega

theorem flags_or {n a : Nat} (h : n < 16777216) : n ||| a * 16777216 = a * 16777216 + n := by
  have := Nat.two_pow_add_eq_or_of_lt (i := 24) (b := n) (by simpa using h) a
  rw [Nat.or_comm, Nat.mul_comm a]
  exact this.symm

def NameOk (s : Bytes) : Prop := (0 : UInt8) ∉ s ∧ s ≠ [] ∧ s.length < 67108861

theorem symbols_ok : ∀ (ys : List Sym) (fuel : Nat) (r : Bytes), (∀ y ∈ ys, NameOk y.name) → ys.length < fuel →
    symbols fuel (putSyms 0 ys ++ (put32be 0 ++ r)) = some (ys.map fun y => (y.name, u32 y.sym.value), r) := by
  intro ys
  induction ys with
  | nil =>
    intro fuel r _ h
    obtain ⟨k, rfl⟩ : ∃ k, fuel = k + 1 := ⟨fuel - 1, by simp at h; omega⟩
    show symbols (k + 1) (put32be 0 ++ r) = _
    unfold symbols
    rw [get32be_put32be (by omega)]
    rfl
  | cons y ys ih =>
    intro fuel r hn h
    obtain ⟨k, rfl⟩ : ∃ k, fuel = k + 1 := ⟨fuel - 1, by simp at h; omega⟩
    obtain ⟨h1, h2, h3⟩ := hn y (by simp)
    have hl : 0 < y.name.length := List.length_pos_iff.2 h2
    have e : putSyms 0 (y :: ys) ++ (put32be 0 ++ r) = put32be ((y.name.length + 3) / 4) ++ (padded y.name ++ (put32be (u32 y.sym.value) ++
        (putSyms 0 ys ++ (put32be 0 ++ r)))) := by
      simp [putSyms, fputstr, List.append_assoc]
    rw [e]
    unfold symbols
    rw [get32be_put32be (by omega)]
    show (if (y.name.length + 3) / 4 = 0 then _ else _) = _
    rw [if_neg (by omega), name_padded h1]
    simp only [Option.bind_eq_bind, Option.bind_some]
    rw [get32be_put32be (u32_lt _)]
    simp only [Option.bind_some]
    rw [ih k r (fun z hz => hn z (by simp [hz])) (by simp at h; omega)]
    rfl

theorem length_putSyms (flags : Nat) (ys : List Sym) : ys.length ≤ (putSyms flags ys).length := by
  induction ys with
  | nil => simp
  | cons y ys ih =>
    have : putSyms flags (y :: ys) = (fputstr y.name flags ++ put32be (u32 y.sym.value)) ++ putSyms flags ys := rfl
    rw [this, List.length_append, List.length_append, length_put32be, List.length_cons]
    omega

/-- References to a symbol. -/
def refEnc (M : Mod) (g : Nat × List (Nat × Nat)) : Bytes :=
  fputstr (M.sym g.1).name 0x81000000 ++ (put32be g.2.length ++ (g.2.map Prod.fst).flatMap put32be)

theorem exts_defs : ∀ (ys : List Sym) (fuel : Nat) (r : Bytes), (∀ y ∈ ys, NameOk y.name) → ys.length < fuel →
    exts fuel (putSyms 0x01000000 ys ++ (put32be 0 ++ r)) = some (ys.map fun y => Ext.defn y.name (u32 y.sym.value), r) := by
  intro ys
  induction ys with
  | nil =>
    intro fuel r _ h
    obtain ⟨k, rfl⟩ : ∃ k, fuel = k + 1 := ⟨fuel - 1, by simp at h; omega⟩
    show exts (k + 1) (put32be 0 ++ r) = _
    unfold exts
    rw [get32be_put32be (by omega)]
    rfl
  | cons y ys ih =>
    intro fuel r hn h
    obtain ⟨k, rfl⟩ : ∃ k, fuel = k + 1 := ⟨fuel - 1, by simp at h; omega⟩
    obtain ⟨h1, h2, h3⟩ := hn y (by simp)
    have hl : 0 < y.name.length := List.length_pos_iff.2 h2
    have hw := flags_or (n := (y.name.length + 3) / 4) (a := 1) (by omega)
    have e : putSyms 0x01000000 (y :: ys) ++ (put32be 0 ++ r) = put32be (16777216 + (y.name.length + 3) / 4) ++ (padded y.name ++
        (put32be (u32 y.sym.value) ++ (putSyms 0x01000000 ys ++ (put32be 0 ++ r)))) := by
      rw [show 16777216 + (y.name.length + 3) / 4 = (y.name.length + 3) / 4 ||| 0x01000000 from hw.symm]
      simp [putSyms, fputstr, List.append_assoc]
    rw [e]
    unfold exts
    rw [get32be_put32be (by omega)]
    show (if 16777216 + (y.name.length + 3) / 4 = 0 then _ else _) = _
    rw [if_neg (by omega)]
    rw [show (16777216 + (y.name.length + 3) / 4) % 16777216 = (y.name.length + 3) / 4 by omega, name_padded h1]
    show (if (16777216 + (y.name.length + 3) / 4) / 16777216 = 1 then _ else _) = _
    rw [if_pos (by omega)]
    show Option.bind (get32be (put32be (u32 y.sym.value) ++ _)) _ = _
    rw [get32be_put32be (u32_lt _)]
    show Option.bind (exts k _) _ = _
    rw [ih k r (fun z hz => hn z (by simp [hz])) (by simp at h; omega)]
    rfl

theorem exts_refs (M : Mod) (ys : List Sym) (hy : ∀ y ∈ ys, NameOk y.name) : ∀ (gs : List (Nat × List (Nat × Nat))) (fuel : Nat) (r : Bytes),
    (∀ g ∈ gs, NameOk (M.sym g.1).name ∧ g.2.length < W32 ∧ ∀ x ∈ g.2, x.1 < W32) → gs.length + ys.length < fuel →
    exts fuel (gs.flatMap (refEnc M) ++ (putSyms 0x01000000 ys ++ (put32be 0 ++ r))) =
      some ((gs.map fun g => Ext.ref32 (M.sym g.1).name (g.2.map Prod.fst)) ++ ys.map fun y => Ext.defn y.name (u32 y.sym.value), r) := by
  intro gs
  induction gs with
  | nil =>
    intro fuel r _ h
    exact exts_defs ys fuel r hy (by simpa using h)
  | cons g gs ih =>
    intro fuel r hn h
    obtain ⟨k, rfl⟩ : ∃ k, fuel = k + 1 := ⟨fuel - 1, by simp at h; omega⟩
    obtain ⟨⟨h1, h2, h3⟩, h4, h5⟩ := hn g (by simp)
    have hl : 0 < (M.sym g.1).name.length := List.length_pos_iff.2 h2
    generalize hN : (M.sym g.1).name = N at *
    have hw := flags_or (n := (N.length + 3) / 4) (a := 0x81) (by omega)
    have e : (g :: gs).flatMap (refEnc M) ++ (putSyms 0x01000000 ys ++ (put32be 0 ++ r)) = put32be (0x81000000 + (N.length + 3) / 4) ++ (padded N ++
        (put32be g.2.length ++ ((g.2.map Prod.fst).flatMap put32be ++ (gs.flatMap (refEnc M) ++ (putSyms 0x01000000 ys ++ (put32be 0 ++ r)))))) := by
      rw [show 0x81000000 + (N.length + 3) / 4 = (N.length + 3) / 4 ||| 0x81000000 from hw.symm, ← hN]
      simp only [List.flatMap_cons, refEnc, fputstr, List.append_assoc]
    rw [e]
    unfold exts
    rw [get32be_put32be (by omega)]
    show (if 0x81000000 + (N.length + 3) / 4 = 0 then _ else _) = _
    rw [if_neg (by omega)]
    rw [show (0x81000000 + (N.length + 3) / 4) % 16777216 = (N.length + 3) / 4 by omega, name_padded h1]
    show (if (0x81000000 + (N.length + 3) / 4) / 16777216 = 1 then _ else if (0x81000000 + (N.length + 3) / 4) / 16777216 = 0x81 then _ else _) = _
    rw [if_neg (by omega), if_pos (by omega)]
    show Option.bind (get32be (put32be g.2.length ++ _)) _ = _
    rw [get32be_put32be h4]
    show Option.bind (Container.Amiga.longs g.2.length _) _ = _
    have hlg := longs_flatMap (g.2.map Prod.fst) (gs.flatMap (refEnc M) ++ (putSyms 0x01000000 ys ++ (put32be 0 ++ r))) (by
      intro x hx
      obtain ⟨z, hz, rfl⟩ := List.mem_map.1 hx
      exact h5 z hz)
    rw [List.length_map] at hlg
    rw [hlg]
    show Option.bind (exts k _) _ = _
    rw [ih k r (fun z hz => hn z (by simp [hz])) (by simp at h; omega), List.map_cons, hN]
    rfl

theorem length_refEnc (M : Mod) (gs : List (Nat × List (Nat × Nat))) : gs.length ≤ (gs.flatMap (refEnc M)).length := by
  induction gs with
  | nil => simp
  | cons g gs ih =>
    rw [List.flatMap_cons, List.length_append, refEnc, List.length_append, List.length_append, length_put32be, List.length_cons]
    omega

/-! ### The blocks of a hunk -/

theorem tail_end (fuel : Nat) (r : Bytes) : tail (fuel + 1) (put32be 0x3F2 ++ r) = some (⟨[], [], []⟩, r) := by
  unfold tail
  rw [get32be_put32be (by omega)]
  rfl

theorem tail_reloc {fuel : Nat} {G : List (Nat × List Nat)} (hG : ∀ g ∈ G, GroupOk g) {r r' : Bytes} {t : Tail} (h : tail fuel r = some (t, r')) :
    tail (fuel + 1) (put32be 0x3EC ++ (G.flatMap enc ++ (put32be 0 ++ r))) = some ({ t with relocs := G ++ t.relocs }, r') := by
  unfold tail
  rw [get32be_put32be (by omega)]
  show Option.bind (Container.Amiga.relocs _ _) _ = _
  rw [relocs_enc G _ r hG ?_]
  · show Option.bind (tail fuel r) _ = _
    rw [h]; rfl
  · have : G.length ≤ (G.flatMap enc).length := by
      clear hG
      induction G with
      | nil => simp
      | cons g G ih =>
        rw [List.flatMap_cons, List.length_append, enc, List.length_append, List.length_append, length_put32be, List.length_cons]
        omega
    rw [List.length_append]
    omega

theorem tail_ext {fuel : Nat} {b : Bytes} {x : List Ext} {r r' : Bytes} (he : exts ((b ++ r).length + 1) (b ++ r) = some (x, r)) {t : Tail}
    (h : tail fuel r = some (t, r')) : tail (fuel + 1) (put32be 0x3EF ++ (b ++ r)) = some ({ t with exts := x ++ t.exts }, r') := by
  unfold tail
  rw [get32be_put32be (by omega)]
  show Option.bind (exts _ _) _ = _
  rw [he]
  show Option.bind (tail fuel r) _ = _
  rw [h]; rfl

theorem tail_syms {fuel : Nat} {ys : List Sym} (hy : ∀ y ∈ ys, NameOk y.name) {r r' : Bytes} {t : Tail} (h : tail fuel r = some (t, r')) :
    tail (fuel + 1) (put32be 0x3F0 ++ (putSyms 0 ys ++ (put32be 0 ++ r))) =
      some ({ t with symbols := (ys.map fun y => (y.name, u32 y.sym.value)) ++ t.symbols }, r') := by
  unfold tail
  rw [get32be_put32be (by omega)]
  show Option.bind (symbols _ _) _ = _
  rw [symbols_ok ys _ r hy]
  · show Option.bind (tail fuel r) _ = _
    rw [h]; rfl
  · have := length_putSyms 0 ys
    rw [List.length_append]
    omega

theorem tail_mono : ∀ {fuel fuel' : Nat} {f : Bytes} {x : Tail × Bytes}, tail fuel f = some x → fuel ≤ fuel' → tail fuel' f = some x := by
  intro fuel
  induction fuel with
  | zero => intro fuel' f x h; cases h
  | succ fuel ih =>
    intro fuel' f x h hle
    obtain ⟨k, rfl⟩ : ∃ k, fuel' = k + 1 := ⟨fuel' - 1, by omega⟩
    unfold tail at h ⊢
    cases hg : get32be f with
    | none => rw [hg] at h; cases h
    | some p =>
      obtain ⟨w, f⟩ := p
      rw [hg] at h
      simp only [Option.bind_eq_bind, Option.bind_some] at h ⊢
      split
      · rwa [if_pos (by assumption)] at h
      rw [if_neg (by assumption)] at h
      split
      · rw [if_pos (by assumption)] at h
        obtain ⟨a, h1, h2⟩ := Option.bind_eq_some_iff.1 h
        obtain ⟨b, h3, h4⟩ := Option.bind_eq_some_iff.1 h2
        rw [h1]
        simp only [Option.bind_some]
        rw [ih h3 (by omega)]
        exact h4
      rw [if_neg (by assumption)] at h
      split
      · rw [if_pos (by assumption)] at h
        obtain ⟨a, h1, h2⟩ := Option.bind_eq_some_iff.1 h
        obtain ⟨b, h3, h4⟩ := Option.bind_eq_some_iff.1 h2
        rw [h1]
        simp only [Option.bind_some]
        rw [ih h3 (by omega)]
        exact h4
      rw [if_neg (by assumption)] at h
      split
      · rw [if_pos (by assumption)] at h
        obtain ⟨a, h1, h2⟩ := Option.bind_eq_some_iff.1 h
        obtain ⟨b, h3, h4⟩ := Option.bind_eq_some_iff.1 h2
        rw [h1]
        simp only [Option.bind_some]
        rw [ih h3 (by omega)]
        exact h4
      · rw [if_neg (by assumption)] at h
        cases h

end Verif.Ami
