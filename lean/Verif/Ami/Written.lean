import Verif.Ami.Parse
/-! What is written for a section, and how it is read. -/
namespace Verif.Ami
open Verif.Expr (u32)
open Verif.Container.Amiga (padded enc GroupOk length_padded)

theorem store_mid {pre d out : Bytes} {off : Nat} {bs : Bytes} (h : off + bs.length ≤ d.length) :
    store (pre ++ (d ++ out)) (pre.length + off) bs = pre ++ (store d off bs ++ out) := by
  unfold store
  rw [List.take_append, List.take_of_length_le (by omega), Nat.add_sub_cancel_left, List.take_append_of_le_length (by omega),
    List.drop_append, List.drop_of_length_le (by omega), List.nil_append,
    show pre.length + off + bs.length - pre.length = off + bs.length by omega, List.drop_append_of_le_length h]
  simp only [List.append_assoc]

theorem putPatches_mid {pre : Bytes} : ∀ (ps : List (Nat × Nat)) (d out : Bytes), (∀ p ∈ ps, p.1 + 4 ≤ d.length) →
    putPatches pre.length ps (pre ++ (d ++ out)) = pre ++ (setLongs d ps ++ (out ++ (ps.map Prod.fst).flatMap put32be)) := by
  intro ps
  induction ps with
  | nil => intro d out _; simp [putPatches, setLongs]
  | cons p ps ih =>
    intro d out h
    obtain ⟨off, v⟩ := p
    have h1 : off + (put32be v).length ≤ d.length := h (off, v) (by simp)
    unfold putPatches
    rw [store_mid h1, List.append_assoc, List.append_assoc, ih (store d off (put32be v)) (out ++ put32be off) (fun p hp => by
      rw [length_store h1]; exact h p (by simp [hp]))]
    simp only [setLongs, List.foldl_cons, List.map_cons, List.flatMap_cons, List.append_assoc]

/-- The groups of relocations that are written. -/
def relocGroups : Nat → List (List (Nat × Nat)) → List (Nat × List Nat)
  | _, [] => []
  | i, g :: gs => if g = [] then relocGroups (i + 1) gs else (i, g.map Prod.fst) :: relocGroups (i + 1) gs

theorem putGroups_mid {pre : Bytes} : ∀ (gs : List (List (Nat × Nat))) (i : Nat) (d out : Bytes), (∀ p ∈ gs.flatten, p.1 + 4 ≤ d.length) →
    putGroups pre.length i gs (pre ++ (d ++ out)) = pre ++ (setLongs d gs.flatten ++ (out ++ (relocGroups i gs).flatMap enc)) := by
  intro gs
  induction gs with
  | nil => intro i d out _; simp [putGroups, setLongs, relocGroups]
  | cons g gs ih =>
    intro i d out h
    unfold putGroups relocGroups
    by_cases hg : g = []
    · subst hg
      rw [if_pos rfl, if_pos rfl, ih (i + 1) d out (by simpa using h)]
      rfl
    · rw [if_neg hg, if_neg hg, List.append_assoc, List.append_assoc]
      have h1 : ∀ p ∈ g, p.1 + 4 ≤ d.length := fun p hp => h p (by simp [hp])
      rw [putPatches_mid g d _ h1, ih (i + 1) (setLongs d g) _ (fun p hp => by
        rw [length_setLongs h1]; exact h p (by rw [List.flatten_cons]; exact List.mem_append_right _ hp))]
      rw [List.flatten_cons, setLongs_append, List.flatMap_cons]
      simp only [enc, List.length_map, List.append_assoc]

/-- The references that are written: patches of the same symbol together. -/
def refGroups : Nat → List (Nat × Nat × Nat) → List (Nat × List (Nat × Nat))
  | 0, _ => []
  | _, [] => []
  | k + 1, (n, off, v) :: rest => (n, (((n, off, v) :: rest).filter fun x => x.1 == n).map Prod.snd) :: refGroups k (rest.filter fun x => !(x.1 == n))

theorem refGroups_cons (k n off v : Nat) (rest : List (Nat × Nat × Nat)) :
    refGroups (k + 1) ((n, off, v) :: rest) =
      (n, (((n, off, v) :: rest).filter fun x => x.1 == n).map Prod.snd) :: refGroups k (rest.filter fun x => !(x.1 == n)) := rfl

theorem putRefs_mid (M : Mod) {pre : Bytes} : ∀ (k : Nat) (l : List (Nat × Nat × Nat)) (d out : Bytes), (∀ x ∈ l, x.2.1 + 4 ≤ d.length) →
    putRefs M pre.length k l (pre ++ (d ++ out)) =
      pre ++ (setLongs d ((refGroups k l).flatMap Prod.snd) ++ (out ++ (refGroups k l).flatMap (refEnc M))) := by
  intro k
  induction k with
  | zero => intro l d out _; simp [putRefs, refGroups, setLongs]
  | succ k ih =>
    intro l d out h
    cases l with
    | nil => simp [putRefs, refGroups, setLongs]
    | cons x rest =>
      obtain ⟨n, off, v⟩ := x
      rw [refGroups_cons]
      unfold putRefs
      simp only
      generalize hm : ((n, off, v) :: rest).filter (fun x => x.1 == n) = mine
      have h1 : ∀ p ∈ mine.map Prod.snd, p.1 + 4 ≤ d.length := by
        intro p hp
        obtain ⟨x, hx, rfl⟩ := List.mem_map.1 hp
        exact h x (List.mem_filter.1 (hm ▸ hx)).1
      rw [List.append_assoc, List.append_assoc, putPatches_mid _ d _ h1, ih _ (setLongs d (mine.map Prod.snd)) _ (fun p hp => by
        rw [length_setLongs h1]; exact h p (by simp [(List.mem_filter.1 hp).1]))]
      rw [List.flatMap_cons, List.flatMap_cons, setLongs_append]
      simp only [refEnc, List.length_map, List.append_assoc]

/-! ### A hunk -/

def groupsOf (M : Mod) (link : Bool) (s : Sec) : List (List (Nat × Nat)) := (List.range M.secs.length).map (groupOf M link s.patches)

def refsOf (M : Mod) (link : Bool) (s : Sec) : List (Nat × List (Nat × Nat)) :=
  if link then refGroups (importsOf M link s.patches).length (importsOf M link s.patches) else []

def defsOf (M : Mod) (link : Bool) (k : Nat) : List Sym := if link then M.exports k else []

def tailOf (M : Mod) (link debug : Bool) (k : Nat) (s : Sec) : Tail :=
  ⟨if s.text then relocGroups 0 (groupsOf M link s) else [],
    (if s.text then (refsOf M link s).map fun g => Ext.ref32 (M.sym g.1).name (g.2.map Prod.fst) else []) ++
      (defsOf M link k).map fun y => Ext.defn y.name (u32 y.sym.value),
    if debug then (M.labels k).map fun y => (y.name, u32 y.sym.value) else []⟩

def hunkOf (M : Mod) (link debug : Bool) (k : Nat) (s : Sec) : Hunk :=
  ⟨if s.text then (if s.isData then 0x3EA else 0x3E9) else 0x3EB, longs s.used,
    if s.text then setLongs (padded s.data) ((groupsOf M link s).flatten ++ (refsOf M link s).flatMap Prod.snd) else [],
    tailOf M link debug k s⟩

/-- The end of a hunk. -/
theorem finish_ok {M : Mod} (hM : ∀ y ∈ M.syms, NameOk y.name) (debug : Bool) (k : Nat) (f : Bytes) :
    ∃ b, (if debug then putLabels M k f else f) ++ put32be 0x3F2 = f ++ b ∧ 4 ≤ b.length ∧ ∀ r, tail 2 (b ++ r) =
      some (⟨[], [], if debug then (M.labels k).map fun y => (y.name, u32 y.sym.value) else []⟩, r) := by
  cases debug with
  | false => exact ⟨_, rfl, Nat.le_refl 4, fun r => tail_end 1 r⟩
  | true =>
    simp only [if_true]
    unfold putLabels
    by_cases h : M.labels k = []
    · rw [if_pos h, h]
      exact ⟨_, rfl, Nat.le_refl 4, fun r => tail_end 1 r⟩
    · rw [if_neg h]
      refine ⟨put32be 0x3F0 ++ (putSyms 0 (M.labels k) ++ (put32be 0 ++ put32be 0x3F2)), by simp only [List.append_assoc], by simp [length_put32be], fun r => ?_⟩
      simp only [List.append_assoc]
      have := tail_syms (ys := M.labels k) (fun y hy => hM y (List.mem_filter.1 hy).1) (tail_end 0 r)
      rw [List.append_nil] at this
      exact this

/-- External symbols, and the end of a hunk. -/
theorem ext_ok {M : Mod} (hM : ∀ y ∈ M.syms, NameOk y.name) {k : Nat} {pre d out : Bytes} {I : List (Nat × Nat × Nat)}
    (hI : ∀ x ∈ I, x.2.1 + 4 ≤ d.length ∧ x.2.1 < W32) (hg : ∀ g ∈ refGroups I.length I, NameOk (M.sym g.1).name ∧ g.2.length < W32 ∧ ∀ x ∈ g.2, x.1 < W32)
    {b : Bytes} {t : Tail} {n : Nat} (h4 : 4 ≤ b.length)
    (hb : ∀ r, tail n (b ++ r) = some (t, r)) :
    ∃ b', putExt M k pre.length I (pre ++ (d ++ out)) ++ b = pre ++ (setLongs d ((refGroups I.length I).flatMap Prod.snd) ++ (out ++ b')) ∧ 4 ≤ b'.length ∧
      ∀ r, tail (n + 1) (b' ++ r) = some ({ t with exts := ((refGroups I.length I).map fun g => Ext.ref32 (M.sym g.1).name (g.2.map Prod.fst)) ++
        ((M.exports k).map fun y => Ext.defn y.name (u32 y.sym.value)) ++ t.exts }, r) := by
  unfold putExt
  split
  · rename_i h
    obtain ⟨rfl, h2⟩ := h
    rw [h2]
    exact ⟨b, by simp [refGroups, setLongs], h4, fun r => tail_mono (hb r) (Nat.le_succ n)⟩
  · refine ⟨put32be 0x3EF ++ ((refGroups I.length I).flatMap (refEnc M) ++ (putSyms 0x01000000 (M.exports k) ++ (put32be 0 ++ b))), ?_, by simp only [List.length_append]; omega, fun r => ?_⟩
    · rw [List.append_assoc, List.append_assoc, List.append_assoc, putRefs_mid M I.length I d (out ++ put32be 0x3EF) (fun x hx => (hI x hx).1)]
      simp only [List.append_assoc]
    · rw [show put32be 0x3EF ++ ((refGroups I.length I).flatMap (refEnc M) ++ (putSyms 0x01000000 (M.exports k) ++ (put32be 0 ++ b))) ++ r =
        put32be 0x3EF ++ (((refGroups I.length I).flatMap (refEnc M) ++ (putSyms 0x01000000 (M.exports k) ++ put32be 0)) ++ (b ++ r)) by
        simp only [List.append_assoc]]
      refine tail_ext ?_ (hb r)
      have h1 := length_refEnc M (refGroups I.length I)
      have h2 := length_putSyms 0x01000000 (M.exports k)
      have := exts_refs M (M.exports k) (fun y hy => hM y (List.mem_filter.1 hy).1) (refGroups I.length I)
        ((((refGroups I.length I).flatMap (refEnc M) ++ (putSyms 0x01000000 (M.exports k) ++ put32be 0)) ++ (b ++ r)).length + 1) (b ++ r) hg
        (by simp only [List.length_append]; omega)
      simpa only [List.append_assoc] using this

theorem importOffset_import {syms : Nat → Expr.ASym} : ∀ {e : Expr.AExpr} {n o : Nat}, importOffset syms e = some (n, o) →
    ((syms n).type = .imported ∨ (syms n).type = .global) ∧ o < W32 := by
  intro e
  induction e with
  | sym m =>
    intro n o h
    unfold importOffset at h
    split at h
    · rename_i hm
      obtain ⟨rfl, rfl⟩ := Prod.mk.inj (Option.some.inj h)
      exact ⟨hm, by omega⟩
    · cases h
  | bin c op a b iha ihb =>
    intro n o h
    unfold importOffset at h
    split at h
    · split at h
      · rename_i h1 _
        obtain ⟨rfl, rfl⟩ := Prod.mk.inj (Option.some.inj h)
        exact ⟨(iha h1).1, by split <;> exact u32_lt _⟩
      · split at h
        · rename_i h1 _
          obtain ⟨rfl, rfl⟩ := Prod.mk.inj (Option.some.inj h)
          exact ⟨(ihb h1).1, by split <;> exact u32_lt _⟩
        · cases h
    · cases h
  | const _ | bank _ | pcRel _ _ _ _ | parens _ _ _ | un _ _ _ _ | bit _ _ _ => intro n o h; cases h

theorem sym_mem {M : Mod} {n : Nat} (h : (M.sym n).sym.type = .imported ∨ (M.sym n).sym.type = .global) : M.sym n ∈ M.syms := by
  unfold Mod.sym at h ⊢
  cases hn : M.syms[n]? with
  | none => rw [hn] at h; rcases h with h | h <;> cases h
  | some y => exact List.mem_of_getElem? hn

/-- What is known about references to other objects. -/
theorem importsOf_mem {M : Mod} {link : Bool} {ps : List Patch} {x : Nat × Nat × Nat} (h : x ∈ importsOf M link ps) :
    ∃ p ∈ ps, target M link p = some (.imp x.1 x.2.2) ∧ p.offset = x.2.1 := by
  unfold importsOf at h
  rw [List.mem_reverse] at h
  obtain ⟨p, hp, he⟩ := List.mem_filterMap.1 h
  refine ⟨p, hp, ?_⟩
  split at he
  · rename_i ht
    cases he
    exact ⟨ht, rfl⟩
  · cases he

theorem groupOf_mem {M : Mod} {link : Bool} {ps : List Patch} {i : Nat} {x : Nat × Nat} (h : x ∈ groupOf M link ps i) :
    ∃ p ∈ ps, target M link p = some (.sec i x.2) ∧ p.offset = x.1 := by
  unfold groupOf at h
  rw [List.mem_reverse] at h
  obtain ⟨p, hp, he⟩ := List.mem_filterMap.1 h
  refine ⟨p, hp, ?_⟩
  split at he
  · rename_i ht
    split at he
    · rename_i hk
      cases he
      exact ⟨by rw [← hk]; exact ht, rfl⟩
    · cases he
  · cases he

theorem target_imp {M : Mod} {link : Bool} {p : Patch} {n o : Nat} (h : target M link p = some (.imp n o)) :
    importOffset M.asm.syms p.expr = some (n, o) ∧ link = true := by
  unfold target at h
  split at h
  · split at h
    · cases h
    · split at h
      · rename_i hl
        obtain ⟨x, hx, he⟩ := Option.map_eq_some_iff.1 h
        cases he
        exact ⟨hx, hl⟩
      · cases h
  · cases h

theorem refGroups_mem : ∀ {k : Nat} {l : List (Nat × Nat × Nat)} {g : Nat × List (Nat × Nat)}, g ∈ refGroups k l →
    (∃ y ∈ l, y.1 = g.1) ∧ g.2.length ≤ l.length ∧ ∀ x ∈ g.2, (g.1, x) ∈ l := by
  intro k
  induction k with
  | zero => intro l g h; cases h
  | succ k ih =>
    intro l g h
    cases l with
    | nil => cases h
    | cons y rest =>
      obtain ⟨n, off, v⟩ := y
      rw [refGroups_cons] at h
      rcases List.mem_cons.1 h with rfl | h
      · refine ⟨⟨(n, off, v), by simp, rfl⟩, ?_, ?_⟩
        · show (List.map Prod.snd _).length ≤ _
          rw [List.length_map]
          exact List.length_filter_le _ _
        · intro x hx
          obtain ⟨z, hz, rfl⟩ := List.mem_map.1 hx
          obtain ⟨h1, h2⟩ := List.mem_filter.1 hz
          have e : n = z.1 := by simpa using Eq.symm (by simpa using h2)
          subst e
          exact h1
      · obtain ⟨⟨y, hy, h1⟩, h2, h3⟩ := ih h
        have := List.length_filter_le (fun x : Nat × Nat × Nat => !(x.1 == n)) rest
        exact ⟨⟨y, List.mem_cons_of_mem _ (List.mem_filter.1 hy).1, h1⟩, by rw [List.length_cons]; omega,
          fun x hx => List.mem_cons_of_mem _ (List.mem_filter.1 (h3 x hx)).1⟩

theorem relocGroups_ok {P : Nat × Nat → Prop} : ∀ {gs : List (List (Nat × Nat))} {i : Nat} {g : Nat × List Nat}, (∀ x ∈ gs.flatten, P x) →
    g ∈ relocGroups i gs → i ≤ g.1 ∧ g.1 < i + gs.length ∧ g.2 ≠ [] ∧ (∃ h ∈ gs, g.2.length = h.length) ∧ ∀ x ∈ g.2, ∃ v, P (x, v) := by
  intro gs
  induction gs with
  | nil => intro i g _ h; cases h
  | cons a gs ih =>
    intro i g hP h
    have ih' : g ∈ relocGroups (i + 1) gs → _ := fun h => ih (i := i + 1) (fun x hx => hP x (by rw [List.flatten_cons]; exact List.mem_append_right _ hx)) h
    have fin : g ∈ relocGroups (i + 1) gs → i ≤ g.1 ∧ g.1 < i + (a :: gs).length ∧ g.2 ≠ [] ∧ (∃ h ∈ a :: gs, g.2.length = h.length) ∧ ∀ x ∈ g.2, ∃ v, P (x, v) := by
      intro h
      obtain ⟨h1, h2, h3, ⟨b, hb, h4⟩, h5⟩ := ih' h
      exact ⟨by omega, by rw [List.length_cons]; omega, h3, ⟨b, List.mem_cons_of_mem _ hb, h4⟩, h5⟩
    unfold relocGroups at h
    split at h
    · exact fin h
    · rename_i ha
      rcases List.mem_cons.1 h with rfl | h
      · refine ⟨Nat.le_refl _, by rw [List.length_cons]; omega, by simpa using ha, ⟨a, by simp, List.length_map ..⟩, ?_⟩
        intro x hx
        obtain ⟨⟨_, v⟩, hz, rfl⟩ := List.mem_map.1 hx
        exact ⟨v, hP _ (by rw [List.flatten_cons]; exact List.mem_append_left _ hz)⟩
      · exact fin h

theorem relocGroups_nil : ∀ {gs : List (List (Nat × Nat))} {i : Nat}, gs.all List.isEmpty = true → relocGroups i gs = [] ∧ gs.flatten = [] := by
  intro gs
  induction gs with
  | nil => intros; exact ⟨rfl, rfl⟩
  | cons a gs ih =>
    intro i h
    rw [List.all_cons, Bool.and_eq_true] at h
    have ha : a = [] := by simpa using h.1
    obtain ⟨h1, h2⟩ := ih (i := i + 1) h.2
    subst ha
    exact ⟨by unfold relocGroups; rw [if_pos rfl, h1], by simpa using h2⟩

/-- A section of a well-formed module, as far as the writer is concerned. -/
structure SecOk (M : Mod) (s : Sec) : Prop where
  used : s.used ≤ 0xFFFFFFFC
  data : s.text = true → s.data.length = s.used
  inside : ∀ p ∈ s.patches, p.offset + 4 ≤ s.used
  count : s.patches.length < W32

theorem longs_eq {n : Nat} (h : n ≤ 0xFFFFFFFC) : longs n = (n + 3) / 4 := by
  unfold longs
  rw [Nat.mod_eq_of_lt (by omega)]

theorem hunk_ok {M : Mod} (hc : M.secs.length < W32) (hM : ∀ y ∈ M.syms, NameOk y.name) {link debug : Bool} {k : Nat} {s : Sec} (hs : SecOk M s) {f f' : Bytes}
    (h : putSection M link debug k s f = .ok f') :
    ∃ b, f' = f ++ b ∧ b ≠ [] ∧ ∀ r, hunk (b ++ r) = some (hunkOf M link debug k s, r) := by
  have hl : longs s.used < W32 := by rw [longs_eq hs.used]; have := hs.used; omega
  unfold putSection at h
  simp only at h
  by_cases ht : s.text = true
  · rw [if_pos ht] at h
    split at h
    case isFalse => cases h
    have h := (Outcome.ok.inj h).symm
    have hd := hs.data ht
    have hpl : (padded s.data).length = 4 * ((s.used + 3) / 4) := by rw [length_padded, hd]
    generalize hpre : f ++ (put32be (if s.isData = true then 0x3EA else 0x3E9) ++ put32be (longs s.used)) = pre at h
    have hG : ∀ x ∈ (groupsOf M link s).flatten, x.1 + 4 ≤ (padded s.data).length ∧ x.1 < W32 := by
      intro x hx
      obtain ⟨g, hg, hx⟩ := List.mem_flatten.1 hx
      obtain ⟨i, _, rfl⟩ := List.mem_map.1 hg
      obtain ⟨p, hp, _, ho⟩ := groupOf_mem hx
      have h1 := hs.inside p hp
      have h2 := hs.used
      omega
    have hI : ∀ x ∈ importsOf M link s.patches, x.2.1 + 4 ≤ (padded s.data).length ∧ x.2.1 < W32 := by
      intro x hx
      obtain ⟨p, hp, _, ho⟩ := importsOf_mem hx
      have h1 := hs.inside p hp
      have h2 := hs.used
      omega
    have hIl : (importsOf M link s.patches).length < W32 := by
      unfold importsOf
      rw [List.length_reverse]
      exact Nat.lt_of_le_of_lt (List.length_filterMap_le _ _) hs.count
    have hR : ∀ g ∈ refGroups (importsOf M link s.patches).length (importsOf M link s.patches),
        NameOk (M.sym g.1).name ∧ g.2.length < W32 ∧ ∀ x ∈ g.2, x.1 < W32 := by
      intro g hg
      obtain ⟨⟨y, hy, h1⟩, h2, h3⟩ := refGroups_mem hg
      obtain ⟨p, hp, hpt, _⟩ := importsOf_mem hy
      have h4 := (importOffset_import (target_imp hpt).1).1
      rw [h1] at h4
      exact ⟨hM _ (sym_mem h4), by omega, fun x hx => (hI _ (h3 x hx)).2⟩
    have hgr : ∀ g ∈ relocGroups 0 (groupsOf M link s), GroupOk g := by
      intro g hg
      obtain ⟨_, h2, h3, ⟨a, ha, h4⟩, h5⟩ := relocGroups_ok (P := fun x => x.1 < W32) (fun x hx => (hG x hx).2) hg
      have : (groupsOf M link s).length = M.secs.length := by unfold groupsOf; rw [List.length_map, List.length_range]
      obtain ⟨i, _, rfl⟩ := List.mem_map.1 ha
      have h6 : (groupOf M link s.patches i).length ≤ s.patches.length := by
        unfold groupOf
        rw [List.length_reverse]
        exact List.length_filterMap_le _ _
      have := hs.count
      exact ⟨by omega, h3, by omega, fun x hx => (h5 x hx).elim fun _ h => h⟩
    -- the relocations
    have hrel : ∃ out, (if (groupsOf M link s).all List.isEmpty = true then pre ++ padded s.data else putReloc32 pre.length (groupsOf M link s) (pre ++ padded s.data)) =
        pre ++ (setLongs (padded s.data) (groupsOf M link s).flatten ++ out) ∧ ∀ n t r r', tail n r = some (t, r') →
          tail (n + 1) (out ++ r) = some ({ t with relocs := relocGroups 0 (groupsOf M link s) ++ t.relocs }, r') := by
      split
      · rename_i he
        obtain ⟨h1, h2⟩ := relocGroups_nil (i := 0) he
        rw [h1, h2]
        exact ⟨[], by simp [setLongs], fun n t r r' h => tail_mono h (Nat.le_succ n)⟩
      · refine ⟨put32be 0x3EC ++ ((relocGroups 0 (groupsOf M link s)).flatMap enc ++ put32be 0), ?_, fun n t r r' h => ?_⟩
        · unfold putReloc32
          rw [List.append_assoc, putGroups_mid _ 0 _ _ fun x hx => (hG x hx).1]
          simp only [List.append_assoc]
        · have := tail_reloc hgr h
          simpa only [List.append_assoc] using this
    obtain ⟨out, ho, hot⟩ := hrel
    have hlen : (setLongs (padded s.data) (groupsOf M link s).flatten).length = (padded s.data).length := length_setLongs fun x hx => (hG x hx).1
    have hfin : ∃ b, f' = pre ++ ((hunkOf M link debug k s).data ++ b) ∧ 4 ≤ b.length ∧ ∀ r, tail 4 (b ++ r) = some (tailOf M link debug k s, r) := by
      change f' = (if debug = true then putLabels M k (if link = true then putExt M k pre.length (importsOf M link s.patches)
        (if (groupsOf M link s).all List.isEmpty = true then pre ++ padded s.data else putReloc32 pre.length (groupsOf M link s) (pre ++ padded s.data)) else
        (if (groupsOf M link s).all List.isEmpty = true then pre ++ padded s.data else putReloc32 pre.length (groupsOf M link s) (pre ++ padded s.data))) else
        (if link = true then putExt M k pre.length (importsOf M link s.patches)
        (if (groupsOf M link s).all List.isEmpty = true then pre ++ padded s.data else putReloc32 pre.length (groupsOf M link s) (pre ++ padded s.data)) else
        (if (groupsOf M link s).all List.isEmpty = true then pre ++ padded s.data else putReloc32 pre.length (groupsOf M link s) (pre ++ padded s.data)))) ++
        put32be 0x3F2 at h
      rw [ho] at h
      obtain ⟨b1, hb1, hl1, ht1⟩ := finish_ok hM debug k (if link = true then putExt M k pre.length (importsOf M link s.patches)
        (pre ++ (setLongs (padded s.data) (groupsOf M link s).flatten ++ out)) else pre ++ (setLongs (padded s.data) (groupsOf M link s).flatten ++ out))
      rw [hb1] at h
      cases link with
      | false =>
        refine ⟨out ++ b1, ?_, by rw [List.length_append]; omega, fun r => ?_⟩
        · simp only [Bool.false_eq_true, if_false] at h
          rw [h]
          unfold hunkOf refsOf
          simp [ht]
        · rw [List.append_assoc]
          have := tail_mono (hot 2 _ _ _ (ht1 r)) (show 3 ≤ 4 by omega)
          rw [this]
          unfold tailOf refsOf defsOf
          simp [ht]
      | true =>
        obtain ⟨b2, hb2, hl2, ht2⟩ := ext_ok hM (k := k) (pre := pre) (d := setLongs (padded s.data) (groupsOf M true s).flatten) (out := out)
          (fun x hx => by rw [hlen]; exact hI x hx) hR hl1 ht1
        refine ⟨out ++ b2, ?_, by rw [List.length_append]; omega, fun r => ?_⟩
        · simp only [if_true] at h
          rw [h, hb2]
          unfold hunkOf refsOf
          simp only [ht, if_true, setLongs_append]
        · rw [List.append_assoc]
          rw [hot 3 _ _ _ (ht2 r)]
          unfold tailOf refsOf defsOf
          simp [ht]
    obtain ⟨b, hb, hbl, htl⟩ := hfin
    have hdl : (hunkOf M link debug k s).data.length = 4 * longs s.used := by
      unfold hunkOf
      simp only [ht, if_true]
      rw [setLongs_append, length_setLongs, hlen, hpl, longs_eq hs.used]
      intro x hx
      rw [hlen]
      obtain ⟨g, hg, hx⟩ := List.mem_flatMap.1 hx
      unfold refsOf at hg
      split at hg
      · exact (hI _ ((refGroups_mem hg).2.2 x hx)).1
      · cases hg
    refine ⟨put32be (if s.isData = true then 0x3EA else 0x3E9) ++ (put32be (longs s.used) ++ ((hunkOf M link debug k s).data ++ b)), ?_, ?_, fun r => ?_⟩
    · rw [hb, ← hpre]
      simp only [List.append_assoc]
    · exact fun e => absurd (List.append_eq_nil_iff.1 e).1 (by simp [put32be])
    · simp only [List.append_assoc]
      unfold hunk
      rw [get32be_put32be (by split <;> omega)]
      simp only [Option.bind_eq_bind, Option.bind_some]
      rw [get32be_put32be hl]
      simp only [Option.bind_some]
      rw [if_neg (by split <;> omega), if_pos (by split <;> omega), ← hdl, getN_append]
      simp only [Option.bind_some]
      rw [tail_mono (htl r) (by rw [List.length_append]; omega)]
      unfold hunkOf
      simp only [ht, if_true]
      rfl
  · rw [if_neg ht] at h
    have h := (Outcome.ok.inj h).symm
    have hfin : ∃ b, f' = f ++ (put32be 0x3EB ++ (put32be (longs s.used) ++ b)) ∧ 4 ≤ b.length ∧ ∀ r, tail 4 (b ++ r) = some (tailOf M link debug k s, r) := by
      obtain ⟨b1, hb1, hl1, ht1⟩ := finish_ok hM debug k (if link = true then putExt M k 0 [] (f ++ (put32be 0x3EB ++ put32be (longs s.used)))
        else f ++ (put32be 0x3EB ++ put32be (longs s.used)))
      rw [hb1] at h
      cases link with
      | false =>
        simp only [Bool.false_eq_true, if_false] at h
        refine ⟨b1, by rw [h]; simp only [List.append_assoc], hl1, fun r => ?_⟩
        rw [tail_mono (ht1 r) (show 2 ≤ 4 by omega)]
        unfold tailOf defsOf
        simp [ht]
      | true =>
        obtain ⟨b2, hb2, hl2, ht2⟩ := ext_ok hM (k := k) (pre := []) (d := []) (I := []) (out := f ++ (put32be 0x3EB ++ put32be (longs s.used)))
          (fun x hx => by cases hx) (fun x hx => by cases hx) hl1 ht1
        simp only [if_true] at h
        have hb2 : putExt M k 0 [] (f ++ (put32be 0x3EB ++ put32be (longs s.used))) ++ b1 = (f ++ (put32be 0x3EB ++ put32be (longs s.used))) ++ b2 := hb2
        refine ⟨b2, by rw [h, hb2]; simp only [List.append_assoc], hl2, fun r => ?_⟩
        rw [tail_mono (ht2 r) (show 3 ≤ 4 by omega)]
        unfold tailOf defsOf
        simp [ht, refGroups]
    obtain ⟨b, hb, hbl, htl⟩ := hfin
    refine ⟨_, hb, ?_, fun r => ?_⟩
    · exact fun e => absurd (List.append_eq_nil_iff.1 e).1 (by simp [put32be])
    · simp only [List.append_assoc]
      unfold hunk
      rw [get32be_put32be (by omega)]
      simp only [Option.bind_eq_bind, Option.bind_some]
      rw [get32be_put32be hl]
      simp only [Option.bind_some]
      rw [if_pos True.intro, tail_mono (htl r) (by rw [List.length_append]; omega)]
      unfold hunkOf
      simp [ht]

end Verif.Ami
