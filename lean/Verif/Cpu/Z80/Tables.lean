import Verif.Cpu.Z80.TableA
import Verif.Cpu.Z80.TableB
import Verif.Cpu.Z80.TableC
/-!
# The table as a whole
-/
namespace Verif.Cpu.Z80

theorem mem_all (m : Mn) : m ∈ Mn.all := by
  cases m <;> decide

theorem checked_short (m : Mn) (hr : m ≠ .rst) (hi : m ≠ .im) {xs : List Opv} (h : xs ∈ lists1) : checks F0 m xs = true :=
  List.all_eq_true.1 (List.all_eq_true.1 checks_short m (List.mem_filter.2 ⟨mem_all m, by simp [hr, hi]⟩)) xs h

theorem checked_listsOf (m : Mn) (h2 : m.two = true) {xs : List Opv} (h : xs ∈ listsOf m) : checks F0 m xs = true := by
  have ha := List.all_eq_true.1 checks_alu m
  have hb := List.all_eq_true.1 checks_two m
  have hc := List.all_eq_true.1 checks_all m
  have : m ∈ [Mn.adc, .sub, .sbc, .and, .xor, .or, .cp] ∨
      m ∈ [Mn.bit, .call, .in, .jp, .ldd, .ldi, .ldh, .ldhl, .out, .res, .set] ∨ m ∈ [Mn.add, .ex, .jr] ∨ m = .ld := by
    clear ha hb hc h
    revert h2
    cases m <;> decide
  rcases this with h' | h' | h' | h'
  · exact List.all_eq_true.1 (ha h') xs h
  · exact List.all_eq_true.1 (hb h') xs h
  · exact List.all_eq_true.1 (hc h') xs h
  · subst h'
    exact List.all_eq_true.1 checks_ld xs h

theorem mem_shapes_two {m : Mn} {x y : Opv} (hx : x ∈ shapes .a) (hy : y ∈ shapes .b) (h : (m.all2 || opens m x) = true) :
    [x, y] ∈ listsOf m :=
  List.mem_flatMap.2 ⟨x, List.mem_filter.2 ⟨hx, h⟩, List.mem_map.2 ⟨y, hy, rfl⟩⟩

theorem checks_none {F : Facts} {m : Mn} {xs : List Opv} (hp : passes m xs = false) (hs : ∀ cpu, sem cpu F m xs = none) :
    checks F m xs = true := by
  unfold checks
  rw [hp]
  simp [refuses, hs]

/-- Two operands. -/
theorem checked_two (m : Mn) {x y : Opv} (hx : x ∈ shapes .a) (hy : y ∈ shapes .b) : checks F0 m [x, y] = true := by
  cases h2 : m.two
  · exact checks_none (passes_one m h2 x y) fun cpu => sem_one cpu F0 m h2 x y
  cases ho : (m.all2 || opens m x)
  · obtain ⟨ha, ho⟩ := Bool.or_eq_false_iff.1 ho
    exact checks_none (passes_opens m x y ho) fun cpu => sem_opens cpu F0 m x y ha ho
  · exact checked_listsOf m h2 (mem_shapes_two hx hy ho)

theorem mem_lists {xs : List Opv} (h : xs ∈ lists) :
    xs ∈ lists1 ∨ ∃ x y, xs = [x, y] ∧ x ∈ shapes .a ∧ y ∈ shapes .b := by
  unfold lists at h
  rcases List.mem_append.1 h with h | h
  · exact .inl h
  · obtain ⟨x, hx, h⟩ := List.mem_flatMap.1 h
    obtain ⟨y, hy, rfl⟩ := List.mem_map.1 h
    exact .inr ⟨x, y, rfl, hx, hy⟩

theorem lists_length {xs : List Opv} (h : xs ∈ lists) : xs.length ≤ 2 := by
  rcases mem_lists h with h | ⟨x, y, rfl, _, _⟩
  · unfold lists1 at h
    rcases List.mem_cons.1 h with rfl | h
    · simp
    · obtain ⟨x, _, rfl⟩ := List.mem_map.1 h
      simp
  · simp

theorem checked_F0 (m : Mn) (hr : m ≠ .rst) (hi : m ≠ .im) {xs : List Opv} (h : xs ∈ lists) : checks F0 m xs = true := by
  rcases mem_lists h with h | ⟨x, y, rfl, hx, hy⟩
  · exact checked_short m hr hi h
  · exact checked_two m hx hy

/-- `OUT` with a number that is 0. -/
theorem checked_out {xs : List Opv} (h : xs ∈ lists) : checks ⟨none, false, false, true⟩ .out xs = true := by
  have ho := List.all_eq_true.1 checks_out xs
  rcases mem_lists h with h | ⟨x, y, rfl, hx, hy⟩
  · exact ho (List.mem_append_left _ h)
  · cases hc : opens .out x
    · exact checks_none (passes_opens .out x y hc) fun cpu => sem_opens cpu _ .out x y rfl hc
    · exact ho (List.mem_append_right _ (mem_shapes_two hx hy (by rw [hc, Bool.or_true])))

theorem checked_high {F : Facts} (hF : F ∈ highs) {xs : List Opv} (h : xs ∈ lists) (hi : xs.any Opv.isInd = true) :
    checks F .ld xs = true := by
  refine List.all_eq_true.1 (List.all_eq_true.1 checks_high F hF) xs (List.mem_filter.2 ⟨?_, hi⟩)
  rcases mem_lists h with h | ⟨x, y, rfl, hx, hy⟩
  · exact List.mem_append_left _ h
  · exact List.mem_append_right _ (mem_shapes_two hx hy rfl)

theorem mem_shapes {x : Opv} (h : x ∈ shapes .a) : x = .imm .a ∨ allowed x.am.mode M.imm = false := by
  unfold shapes at h
  rcases List.mem_append.1 h with h | h
  · obtain ⟨z, _, rfl⟩ := List.mem_map.1 h
    right
    cases z <;> decide
  · simp only [List.mem_cons, List.not_mem_nil, or_false] at h
    rcases h with rfl | rfl | rfl | rfl | rfl | rfl | rfl
    all_goals first | exact .inl rfl | exact .inr (by decide)

/-- Other operands of `RST` and `IM`. -/
theorem num_good (o : Opts) (F : Facts) (m : Mn) (h1 : m.entry.modes1 = M.imm) (h2 : m.entry.modes2 = 0) (ht : m.two = false)
    (he : sem o.cpu F m [] = none) (hs : ∀ x, x ≠ .imm .a → x ∈ shapes .a → sem o.cpu F m [x] = none)
    (hg : good o F m [.imm .a] = true) {xs : List Opv} (h : xs ∈ lists) : good o F m xs = true := by
  have key (hs : sem o.cpu F m xs = none) (hp : plan o F m xs = .fail) : good o F m xs = true := by
    unfold good
    rw [hs, hp]
    rfl
  rcases mem_lists h with h | ⟨x, y, rfl, hx, hy⟩
  · unfold lists1 at h
    rcases List.mem_cons.1 h with rfl | h
    · refine key he ?_
      unfold plan dispatch
      simp only [h1, h2]
      rfl
    · obtain ⟨x, hx, rfl⟩ := List.mem_map.1 h
      rcases mem_shapes hx with rfl | hm
      · exact hg
      · refine key (hs x ?_ hx) (plan_passes o F m [x] ?_)
        · rintro rfl
          exact absurd hm (by decide)
        · unfold passes
          simp only [h1, h2, hm]
          rfl
  · exact key (sem_one o.cpu F m ht x y) (plan_passes o F m _ (passes_one m ht x y))

theorem sem_rst (cpu : Cpu) (F : Facts) (x : Opv) (hn : x ≠ .imm .a) (hx : x ∈ shapes .a) : sem cpu F .rst [x] = none := by
  cases x with
  | imm e =>
    unfold shapes at hx
    simp at hx
    subst hx
    exact absurd rfl hn
  | reg z => cases z <;> rfl
  | idx i d => cases i <;> cases d <;> rfl
  | _ => rfl

theorem sem_im (cpu : Cpu) (F : Facts) (x : Opv) (hn : x ≠ .imm .a) (hx : x ∈ shapes .a) : sem cpu F .im [x] = none := by
  cases x with
  | imm e =>
    unfold shapes at hx
    simp at hx
    subst hx
    exact absurd rfl hn
  | reg z => cases z <;> rfl
  | idx i d => cases i <;> cases d <;> rfl
  | _ => rfl

/-- The handlers do what the line means, for all mnemonics, operands, options and whatever is known about the expressions,
apart from what is listed in `odd`. -/
theorem table (o : Opts) (F : Facts) (m : Mn) (xs : List Opv) (hn : ∀ v, F.num = some v → -2147483648 ≤ v ∧ v < 2147483648)
    (h : xs ∈ lists) (ho : odd o m xs = false) : good o F m xs = true := by
  have hl := lists_length h
  have key {F : Facts} (hc : checks F m xs = true) : good o F m xs = true := by
    have := good_of_checks hc o
    rwa [ho, Bool.or_false] at this
  by_cases hr : m = .rst
  · subst hr
    exact num_good o F .rst rfl rfl rfl rfl (fun x => sem_rst o.cpu F x) (rst_good o F hn) h
  by_cases hi : m = .im
  · subst hi
    exact num_good o F .im rfl rfl rfl rfl (fun x => sem_im o.cpu F x) (im_good o F) h
  by_cases hld : m = .ld
  · subst hld
    cases hany : xs.any Opv.isInd
    · rw [ld_plain o F xs hl fun x hx => by simpa using (List.any_eq_false.1 hany) x hx]
      exact key (checked_F0 .ld hr hi h)
    · rw [ld_high o F xs hl]
      cases ha : F.highA <;> cases hb : F.highB
      · exact key (checked_F0 .ld hr hi h)
      all_goals exact key (checked_high (by decide) h hany)
  by_cases hout : m = .out
  · subst hout
    rw [out_facts o F xs]
    cases F.zeroB
    · exact key (checked_F0 .out hr hi h)
    · exact key (checked_out h)
  · rw [good_facts o F m xs hl (by cases m <;> first | rfl | contradiction)]
    exact key (checked_F0 m hr hi h)

end Verif.Cpu.Z80
