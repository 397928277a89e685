import Verif.Expr.AsmProps
/-!
# C14 with a linker that does not know all symbols

An object file contains only those symbols that its expressions use.
-/
namespace Verif.Expr

/-- The symbols of an expression, in the order of `writeSymbols` (xasm/motor/object.c 115-155). -/
def AExpr.names : AExpr → List Nat
  | .const _ => []
  | .sym s => [s]
  | .bank s => [s]
  | .pcRel l r => l.names ++ r.names
  | .parens _ e => e.names
  | .bin _ _ l r => l.names ++ r.names
  | .un _ _ e => e.names
  | .bit _ e => e.names

theorem writeExpr_congr {ids ids' : Nat → Nat} : ∀ (e : AExpr), (∀ s ∈ e.names, ids s = ids' s) → writeExpr ids e = writeExpr ids' e
  | .const _, _ => rfl
  | .sym s, h => by simp only [writeExpr, h s (by simp [AExpr.names])]
  | .bank s, h => by simp only [writeExpr, h s (by simp [AExpr.names])]
  | .pcRel l r, h => by
    simp only [AExpr.names, List.mem_append] at h
    rw [writeExpr, writeExpr, writeExpr_congr l (fun s hs => h s (.inl hs)), writeExpr_congr r (fun s hs => h s (.inr hs))]
  | .parens _ e, h => by rw [writeExpr, writeExpr, writeExpr_congr e h]
  | .bin _ _ l r, h => by
    simp only [AExpr.names, List.mem_append] at h
    rw [writeExpr, writeExpr, writeExpr_congr l (fun s hs => h s (.inl hs)), writeExpr_congr r (fun s hs => h s (.inr hs))]
  | .un _ _ e, h => by rw [writeExpr, writeExpr, writeExpr_congr e h]
  | .bit _ _, _ => rfl

/-- The numbers in the object file stand for the symbols that are used, as far as the linker knows them. -/
structure SubDen (used : Nat → Prop) (ids : Nat → Nat) (ρ ρ' : Den) : Prop where
  sym : ∀ s, used s → ∀ v, ρ'.sym (ids s) = some v → ρ.sym s = some v
  bank : ∀ s, used s → ∀ v, ρ'.bank (ids s) = some v → ρ.bank s = some v
  pc : ρ'.pc = ρ.pc

theorem toTree_sub (fm : FMath) (ids : Nat → Nat) {used : Nat → Prop} {ρ ρ' : Den} (hd : SubDen used ids ρ ρ') (e : AExpr) (ho : e.Ok)
    (hn : e.Plain) (hu : ∀ s ∈ e.names, used s) : ∀ {t : Tree} {v : Int}, toTree ids e = some t → t.value fm ρ' = some v →
      e.den fm strict ρ = some v := by
  induction e with
  | const w =>
    intro t v h hv
    cases h
    obtain ⟨rfl, -⟩ := inRange_some.1 hv
    rfl
  | sym s =>
    intro t v h hv; cases h
    obtain ⟨w, h1, h2⟩ := Option.bind_eq_some_iff.1 hv
    exact Option.bind_eq_some_iff.2 ⟨w, hd.sym s (hu s (by simp [AExpr.names])) w h1, h2⟩
  | bank s =>
    intro t v h hv; cases h
    obtain ⟨w, h1, h2⟩ := Option.bind_eq_some_iff.1 hv
    exact Option.bind_eq_some_iff.2 ⟨w, hd.bank s (hu s (by simp [AExpr.names])) w h1, h2⟩
  | pcRel l r ihl ihr =>
    intro t v h hv
    simp only [AExpr.names, List.mem_append] at hu
    obtain ⟨a, ha, h⟩ := Option.bind_eq_some_iff.1 h
    obtain ⟨b, hb, h⟩ := Option.bind_eq_some_iff.1 h
    cases h
    obtain ⟨x, h1, hv⟩ := Option.bind_eq_some_iff.1 hv
    obtain ⟨y, h2, hv⟩ := Option.bind_eq_some_iff.1 hv
    rw [den_pcRel, ihl ho.1 hn.1 (fun s hs => hu s (.inl hs)) ha h1, ihr ho.2 hn.2 (fun s hs => hu s (.inr hs)) hb h2, ← hd.pc]
    exact hv
  | parens c e ih => intro t v h; cases h
  | bin c op l r ihl ihr =>
    intro t v h hv
    simp only [AExpr.names, List.mem_append] at hu
    obtain ⟨rfl, nl, nr⟩ := hn
    obtain ⟨a, ha, h⟩ := Option.bind_eq_some_iff.1 h
    obtain ⟨b, hb, h⟩ := Option.bind_eq_some_iff.1 h
    cases h
    obtain ⟨x, h1, hv⟩ := Option.bind_eq_some_iff.1 hv
    obtain ⟨y, h2, hv⟩ := Option.bind_eq_some_iff.1 hv
    rw [den_bin, ihl ho.2.1 nl (fun s hs => hu s (.inl hs)) ha h1, ihr ho.2.2 nr (fun s hs => hu s (.inr hs)) hb h2]
    exact hv
  | un c op e ih =>
    intro t v h hv
    obtain ⟨rfl, ne⟩ := hn
    obtain ⟨a, ha, h⟩ := Option.bind_eq_some_iff.1 h
    cases h
    obtain ⟨x, h1, hv⟩ := Option.bind_eq_some_iff.1 hv
    show (e.den fm strict ρ).bind _ = _
    rw [ih ho.2 ne hu ha h1]
    exact hv
  | bit c e ih => intro t v h; cases h

section
variable (fm : FMath) {A : Asm} {base : Nat → Int} {ρ : Den} {now : Nat → ASym} {here : Here} {p : Site} (S : Setting A base ρ now here p)
include S

/-- C14: the value that the linker computes, if it computes one, is the value of the expression. Only the symbols of the
expression have numbers in the object file. -/
theorem C14_value_linked_sub (junk : AExpr → Bool) (s : Src) (hs : s.Ok) (hpc : s.PcOk) (e' : AExpr)
    (h : compile fm now junk here A p s = .ok (.inr e')) (ids : Nat → Nat) (hids : ∀ s ∈ e'.names, ids s < 4294967296)
    (bytes : Bytes) (hw : writeExpr ids e' = some bytes) (env : Env) (ρ' : Den) (henv : env.Places ρ')
    (hsub : SubDen (· ∈ e'.names) ids ρ ρ') (x : Entry) (hx : calculate fm env bytes = .ok (some x)) :
    x.sym = none ∧ s.value fm wrap now ρ = some x.value ∧ ∀ w, s.value fm strict now ρ = some w → w = x.value := by
  obtain ⟨e, he, h⟩ := Outcome.bind_ok.1 h
  split at h
  · cases h
  · rename_i hn
    obtain ⟨⟨e1, y⟩, hr, h⟩ := Outcome.bind_ok.1 h
    have hco : e.Coherent := by
      rcases build_coherent fm now junk here s hpc he with h | ⟨_, v, h⟩
      · exact h
      · rw [hn] at h; cases h
    have ho := optimize_ok S.places e (build_ok fm S.places S.evolves junk s hs he)
    have hR := (reduce_sound fm S.places p S.site _ ho (optimize_plain _ e) hr).1
    cases y with
    | some x => cases h
    | none =>
      cases h
      have hw' : writeExpr (fun s => if ids s < 4294967296 then ids s else 0) e' = some bytes := by
        rw [← hw]
        apply writeExpr_congr
        intro s hs
        simp only [if_pos (hids s hs)]
      have hsub' : SubDen (· ∈ e'.names) (fun s => if ids s < 4294967296 then ids s else 0) ρ ρ' := by
        refine ⟨?_, ?_, hsub.pc⟩
        · intro s hs; simp only [if_pos (hids s hs)]; exact hsub.sym s hs
        · intro s hs; simp only [if_pos (hids s hs)]; exact hsub.bank s hs
      rw [writeExpr_eq _ e' hR.plain] at hw'
      obtain ⟨t, ht, rfl⟩ := Option.map_eq_some_iff.1 hw'
      obtain ⟨tok, _⟩ := toTree_ok _ (by intro s; split <;> omega) e' hR.ok ht
      obtain ⟨hsym, hv⟩ := C12_link_value_is_value fm env ρ' henv t tok x hx
      have hv := toTree_sub fm _ hsub' e' hR.ok hR.plain (fun s hs => hs) ht hv
      have main : s.value fm wrap now ρ = some x.value := by
        rw [← build_wrap fm S.places S.evolves junk S.here s hs he, ← optimize_den fm wrap S.places e hco, ← hR.wrap]
        exact strict_wrap fm ρ e' hv
      refine ⟨hsym, main, fun w hw => ?_⟩
      rw [value_strict_wrap fm now ρ s hw] at main
      exact Option.some.inj main
end

end Verif.Expr
