import Verif.Library.Lemmas
/-!
# Properties of the librarian (C17, C18)
-/
namespace Verif.Library

/-- **C17.** Reading back a library file that was just written yields the same modules in the same order. -/
theorem C17_library_round_trip (lib : List Module) (h : ∀ m ∈ lib, m.Ok) :
    libRead (libWrite lib) = some lib :=
  libRead_libWrite h

/-- Two libraries with the same file are the same. -/
theorem C17_write_injective (a b : List Module) (ha : ∀ m ∈ a, m.Ok) (hb : ∀ m ∈ b, m.Ok)
    (e : libWrite a = libWrite b) : a = b := by
  have h1 := libRead_libWrite ha
  rw [e, libRead_libWrite hb] at h1
  exact (Option.some.inj h1).symm

example : libRead (libWrite [⟨[0x61, 0x2E, 0x6F], [1, 2, 3, 0]⟩, ⟨[0x62], []⟩])
    = some [⟨[0x61, 0x2E, 0x6F], [1, 2, 3, 0]⟩, ⟨[0x62], []⟩] := by decide +kernel

theorem readModules_some : ∀ {fuel : Nat} {bs : Bytes} {ms : List Module}, readModules fuel bs = some ms →
    bs = ms.flatMap writeModule ∧ ∀ m ∈ ms, m.Ok := by
  intro fuel
  induction fuel with
  | zero =>
    intro bs ms h
    cases bs with
    | nil => simp only [readModules, Option.some.injEq] at h; subst h; simp
    | cons b bs => simp [readModules] at h
  | succ fuel ih =>
    intro bs ms h
    cases bs with
    | nil => simp only [readModules, Option.some.injEq] at h; subst h; simp
    | cons b bs =>
      rw [readModules.eq_def] at h
      simp only at h
      split at h
      · cases h
      next name bs1 h1 =>
      split at h
      · cases h
      next hlen =>
      split at h
      · cases h
      next len bs2 h2 =>
      split at h
      · cases h
      next data bs3 h3 =>
      split at h
      · cases h
      next ms' h4 =>
      injection h with h; subst h
      obtain ⟨e1, n1⟩ := getSz_some h1
      obtain ⟨e2, n2⟩ := get32le_some h2
      obtain ⟨e3, n3⟩ := getN_some h3
      obtain ⟨e4, n4⟩ := ih h4
      subst n3
      refine ⟨by rw [e1, e2, e3, e4]; simp [writeModule], ?_⟩
      intro m hm
      rcases List.mem_cons.1 hm with rfl | hm
      · exact ⟨n1, by simp only [maxName] at hlen; simp only; omega, n2⟩
      · exact n4 m hm

/-- **C17.** Nothing but a library is read as one: a file that is accepted is empty, or is the bare magic number
`XLB` with version 0, or is exactly what would be written for the modules that were read, up to the count, which
is ignored. -/
theorem C17_reads_only_libraries (file : Bytes) (lib : List Module) (h : libRead file = some lib) :
    (∀ m ∈ lib, m.Ok) ∧ ((lib = [] ∧ (file = [] ∨ file = [0x58, 0x4C, 0x42, 0])) ∨
      ∃ count, file = [0x58, 0x4C, 0x42, 0] ++ put32le count
        ++ lib.flatMap (fun m => putSz m.name ++ put32le m.data.length ++ m.data)) := by
  unfold libRead at h
  split at h
  next hf =>
    injection h with h; subst h
    exact ⟨by simp, .inl ⟨rfl, .inl hf⟩⟩
  split at h
  · cases h
  next id bs h1 =>
  obtain ⟨e1, n1⟩ := getN_some h1
  split at h
  next hid =>
    split at h
    next hb =>
      injection h with h; subst h
      exact ⟨by simp, .inl ⟨rfl, .inr (by rw [e1, hid, hb]; rfl)⟩⟩
    split at h
    · cases h
    next count bs2 h2 =>
    obtain ⟨e2, n2⟩ := get32le_some h2
    obtain ⟨e3, n3⟩ := readModules_some h
    refine ⟨n3, .inr ⟨count, ?_⟩⟩
    rw [e1, hid, e2, e3, List.append_assoc]
    rfl
  · cases h

-- A library of another version, one that is cut off, and one with a wrong count.
example : libRead [0x58, 0x4C, 0x42, 1, 0, 0, 0, 0] = none := by decide +kernel
example : libRead [0x58, 0x4C, 0x42, 0, 1, 0, 0, 0, 0x61, 0, 2, 0, 0, 0, 7] = none := by decide +kernel
example : libRead [0x58, 0x4C, 0x42, 0, 9, 0, 0, 0, 0x61, 0, 1, 0, 0, 0, 7] = some [⟨[0x61], [7]⟩] := by decide +kernel

/-- A file's module name is the last component of its path, and there is only one such name. -/
theorem C18_module_name (f k : Bytes) : NameOf f k ↔ truncateName f = k := by
  rw [nameOf_iff]; exact eq_comm

/-- **C18.** The librarian behaves as a map from names to contents: as long as no run hits undefined behaviour,
a sequence of runs starting from a missing library file fails exactly if the map operation fails, and
otherwise leaves a library file that holds exactly the resulting map, with one module per name. -/
theorem C18_sessions_refine_map (cs : List Cmd) (hc : ∀ c ∈ cs, c.Ok) (hub : sessions cs [] ≠ .ub) :
    match Store.run cs Store.empty with
    | some s => ∃ file, sessions cs [] = .ok file ∧ Holds file s
    | none => sessions cs [] = .fail := by
  have key : ∀ (cs : List Cmd) (file : Bytes) (lib : List Module), libRead file = some lib →
      Distinct lib → (∀ m ∈ lib, m.Ok) → (∀ c ∈ cs, c.Ok) → sessions cs file ≠ .ub →
      (match Store.run cs (denote lib) with
      | some s => ∃ file', sessions cs file = .ok file' ∧ Holds file' s
      | none => sessions cs file = .fail) := by
    intro cs
    induction cs with
    | nil =>
      intro file lib hr hn _ _ _
      exact ⟨file, rfl, lib, hr, hn, denote_iff hn⟩
    | cons c cs ih =>
      intro file lib hr hn hok hc hub
      have hub1 : apply c lib ≠ .ub := by
        intro e
        simp [sessions, session, hr, e] at hub
      rcases apply_spec (hc c (by simp)) hn hok hub1 with ⟨lib', h1, h2, h3, h4⟩ | ⟨h1, h2⟩
      · have hs : session c file = .ok (libWrite lib') := by simp [session, hr, h1]
        simp only [Store.run, h2]
        have := ih (libWrite lib') lib' (libRead_libWrite h4) h3 h4 (fun c h => hc c (by simp [h]))
          (by simpa [sessions, hs] using hub)
        simpa [sessions, hs] using this
      · have hs : session c file = .fail := by simp [session, hr, h1]
        simp [Store.run, h2, sessions, hs]
  have h0 : denote [] = Store.empty := rfl
  have := key cs [] [] rfl (by simp [Distinct]) (by simp) hc hub
  rwa [h0] at this

/-- Extracting a file from the library after any history yields what the map holds under its name. -/
theorem C18_extract {file : Bytes} {s : Store} (h : Holds file s) (f : Bytes) :
    extract f file = s (truncateName f) := by
  obtain ⟨lib, hr, hn, hs⟩ := h
  simp only [extract, hr]
  have : denote lib (truncateName f) = s (truncateName f) := by
    cases hv : s (truncateName f) with
    | some v => exact (denote_iff hn _ _).1 ((hs _ _).2 hv)
    | none =>
      cases hd : denote lib (truncateName f) with
      | none => rfl
      | some v =>
        have := (hs _ _).1 ((denote_iff hn _ _).2 hd)
        rw [hv] at this; simp at this
  exact this

/-- Adding files never hits undefined behaviour and never fails. -/
theorem C18_add_total (files : List (Bytes × Option Bytes)) (lib : List Module) :
    ∃ lib', apply (.add files) lib = .ok lib' := ⟨_, rfl⟩

/-- What was added and not deleted since can be extracted: adding a readable file and then other files with
other names keeps its contents. -/
theorem C18_add_then_extract (files : List (Bytes × Option Bytes)) (f d : Bytes) (s : Store)
    (h : ∀ g ∈ files, truncateName g.1 ≠ truncateName f) :
    (s.addAll ((f, some d) :: files)) (truncateName f) = some d := by
  have key : ∀ (files : List (Bytes × Option Bytes)) (s : Store) (k : Bytes),
      (∀ g ∈ files, truncateName g.1 ≠ k) → s.addAll files k = s k := by
    intro files
    induction files with
    | nil => intros; rfl
    | cons g gs ih =>
      intro s k hk
      obtain ⟨g, c⟩ := g
      cases c with
      | none => exact ih s k (fun g h => hk g (by simp [h]))
      | some c =>
        simp only [Store.addAll]
        rw [ih _ k (fun g h => hk g (by simp [h]))]
        have := hk (g, some c) (by simp)
        simp only [Store.set]
        rw [if_neg (fun e => this e.symm)]
  simp only [Store.addAll]
  rw [key files _ _ h]
  simp [Store.set]

/-- **C18, negation.** Deleting the module at the end of the library, in particular the first module that was
added to it, is undefined behaviour; a library with one module cannot be emptied. -/
theorem C18_delete_oldest_module_ub (l : List Module) (m : Module) (f : Bytes) (hn : Distinct (l ++ [m]))
    (hf : truncateName f = m.name) : apply (.delete [f]) (l ++ [m]) = .ub := by
  simp only [apply, deleteAll, hf, (deleteModule_ub hn).2 ⟨l, m, rfl, rfl⟩]

/-- Apart from that module a delete does not hit undefined behaviour. -/
theorem C18_delete_ub_only_oldest (lib : List Module) (f : Bytes) (hn : Distinct lib)
    (h : apply (.delete [f]) lib = .ub) : ∃ l m, lib = l ++ [m] ∧ m.name = truncateName f := by
  apply (deleteModule_ub hn).1
  simp only [apply, deleteAll] at h
  cases hd : deleteModule (truncateName f) lib <;> simp_all

-- A non-trivial history: add a.o and b.o, replace dir/a.o, delete b.o, which is not the last of the list.
example :
    let cs := [Cmd.add [([0x61], some [1]), ([0x62], some [2])], .add [([0x64, 0x2F, 0x61], some [3])],
      .delete [[0x62]]]
    (∃ file, sessions cs [] = .ok file ∧ extract [0x61] file = some [3] ∧ extract [0x62] file = none) := by
  refine ⟨libWrite [⟨[0x61], [3]⟩], ?_, ?_, ?_⟩ <;> decide +kernel

-- Adding one module and deleting it again.
example : sessions [.add [([0x61], some [1])], .delete [[0x61]]] [] = .ub := by decide +kernel

end Verif.Library
