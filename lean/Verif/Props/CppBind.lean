import Verif.Spec.CppBind
/-
Property C113: the environment variable ZSERIO_PYTHON_IMPLEMENTATION decides which implementation of the runtime library is used.
-/
set_option linter.unusedSimpArgs false
namespace Zserio.CppBind

theorem available_iff {m : Module} {c : ClassName} : Available m c ↔ ∃ id, lookup m c.cppName = some id := by
  unfold Available lookup
  cases m with
  | none => simp
  | some a => simp [Option.isSome_iff_exists]

theorem choose_unset (m : Module) (exc : Cls) (c : ClassName) : ∃ cls, choose none m exc c = .ok cls ∧ Preferred m c cls := by
  unfold choose importCppClass Preferred
  cases h : lookup m c.cppName with
  | none => exact ⟨_, rfl, .inr ⟨by rw [available_iff, h]; simp, rfl⟩⟩
  | some id =>
    refine ⟨_, rfl, .inl ?_⟩
    unfold lookup at h
    cases m with
    | none => cases h
    | some a => exact ⟨a, id, rfl, h, rfl⟩

/-- **C113.** If the variable is not set, importing the library never fails, whatever the C++ module is: each class is the one of the C++
module if it has it, and the one of Python otherwise. -/
theorem C113_unset (m : Module) : ∃ r, importZserio none m = .ok r ∧ ∀ c, Preferred m c (r.get c) := by
  obtain ⟨a, ha, pa⟩ := choose_unset m (.python .exception) .exception
  obtain ⟨b, hb, pb⟩ := choose_unset m a .bitBuffer
  obtain ⟨x, hx, px⟩ := choose_unset m a .reader
  obtain ⟨w, hw, pw⟩ := choose_unset m a .writer
  refine ⟨⟨a, b, x, w⟩, by unfold importZserio; simp [ha, hb, hx, hw, bind, Except.bind], ?_⟩
  intro c
  cases c <;> assumption

/-- **C113.** If the variable is `python`, all classes are those of Python, whatever the C++ module is. -/
theorem C113_python (m : Module) : ∃ r, importZserio (some (py! "python")) m = .ok r ∧ ∀ c, r.get c = .python c := by
  refine ⟨⟨.python .exception, .python .bitBuffer, .python .reader, .python .writer⟩, ?_, fun c => by cases c <;> rfl⟩
  unfold importZserio choose importCppClass
  simp [bind, Except.bind]

theorem choose_cpp {impl : PyStr} (hi : impl = py! "cpp" ∨ impl = py! "c++") (m : Module) (exc : Cls) (c : ClassName) :
    choose (some impl) m exc c = match lookup m c.cppName with
      | some id => .ok (.cpp id)
      | none => .error (.notAvailable exc c.cppName) := by
  unfold choose importCppClass
  rcases hi with rfl | rfl <;> cases lookup m c.cppName <;> simp [bind, Except.bind]

/-- **C113.** If the variable is `cpp` or `c++`, importing the library succeeds exactly if the C++ module has all classes, all classes are then
those of C++, and otherwise the exception names a class which is not available. -/
theorem C113_cpp {impl : PyStr} (hi : impl = py! "cpp" ∨ impl = py! "c++") (m : Module) :
    ((∃ r, importZserio (some impl) m = .ok r) ↔ ∀ c, Available m c) ∧
    (∀ r, importZserio (some impl) m = .ok r → ∀ c, ∃ attributes id, m = some attributes ∧ attributes c.cppName = some id ∧ r.get c = .cpp id) ∧
    (∀ e, importZserio (some impl) m = .error e → ∃ exc c, e = .notAvailable exc c.cppName ∧ ¬ Available m c) := by
  have hm : ∀ {c : ClassName} {id}, lookup m c.cppName = some id → ∃ attributes, m = some attributes ∧ attributes c.cppName = some id := by
    intro c id h
    unfold lookup at h
    cases m with
    | none => cases h
    | some a => exact ⟨a, rfl, h⟩
  have hn : ∀ {c : ClassName}, lookup m c.cppName = none → ¬ Available m c := by
    intro c h
    rw [available_iff, h]; simp
  unfold importZserio
  simp only [choose_cpp hi]
  cases h1 : lookup m ClassName.exception.cppName with
  | none => exact ⟨⟨(by rintro ⟨r, h⟩; cases h), fun h => absurd (h _) (hn h1)⟩, (by rintro r h; cases h), (by rintro e h; cases h; exact ⟨_, _, rfl, hn h1⟩)⟩
  | some i1 =>
    cases h2 : lookup m ClassName.bitBuffer.cppName with
    | none => exact ⟨⟨(by rintro ⟨r, h⟩; cases h), fun h => absurd (h _) (hn h2)⟩, (by rintro r h; cases h), (by rintro e h; cases h; exact ⟨_, _, rfl, hn h2⟩)⟩
    | some i2 =>
      cases h3 : lookup m ClassName.reader.cppName with
      | none => exact ⟨⟨(by rintro ⟨r, h⟩; cases h), fun h => absurd (h _) (hn h3)⟩, (by rintro r h; cases h), (by rintro e h; cases h; exact ⟨_, _, rfl, hn h3⟩)⟩
      | some i3 =>
        cases h4 : lookup m ClassName.writer.cppName with
        | none => exact ⟨⟨(by rintro ⟨r, h⟩; cases h), fun h => absurd (h _) (hn h4)⟩, (by rintro r h; cases h), (by rintro e h; cases h; exact ⟨_, _, rfl, hn h4⟩)⟩
        | some i4 =>
          refine ⟨⟨fun _ c => ?_, fun _ => ⟨_, rfl⟩⟩, ?_, by rintro e h; cases h⟩
          · cases c
            · exact available_iff.mpr ⟨_, h1⟩
            · exact available_iff.mpr ⟨_, h2⟩
            · exact available_iff.mpr ⟨_, h3⟩
            · exact available_iff.mpr ⟨_, h4⟩
          · rintro r h c
            cases h
            cases c
            · obtain ⟨a, ha, hb⟩ := hm h1; exact ⟨a, _, ha, hb, rfl⟩
            · obtain ⟨a, ha, hb⟩ := hm h2; exact ⟨a, _, ha, hb, rfl⟩
            · obtain ⟨a, ha, hb⟩ := hm h3; exact ⟨a, _, ha, hb, rfl⟩
            · obtain ⟨a, ha, hb⟩ := hm h4; exact ⟨a, _, ha, hb, rfl⟩

/-- **C113.** With any other value the library cannot be imported, whatever the C++ module is, and the exception is the one of Python and names
the value. -/
theorem C113_other {impl : PyStr} (hi : impl ≠ py! "cpp" ∧ impl ≠ py! "c++" ∧ impl ≠ py! "python") (m : Module) :
    importZserio (some impl) m = .error (.unknownImplementation (.python .exception) impl) := by
  unfold importZserio choose importCppClass
  simp [hi.1, hi.2.1, hi.2.2, bind, Except.bind]

/-- **C113, part.** The classes are of one implementation if the C++ module has all of them or none, or if the variable is set. -/
theorem C113_one_implementation_partial {env : Option PyStr} {m : Module} {r : Runtime} (h : importZserio env m = .ok r)
    (hm : env = none → (∀ c, Available m c) ∨ ∀ c, ¬ Available m c) : (∀ c, r.get c = .python c) ∨ ∀ c, ∃ id, r.get c = .cpp id := by
  cases env with
  | none =>
    obtain ⟨r', hr, hp⟩ := C113_unset m
    rw [h] at hr
    cases hr
    rcases hm rfl with ha | hn
    · right
      intro c
      rcases hp c with ⟨_, id, _, _, he⟩ | ⟨hx, _⟩
      · exact ⟨id, he⟩
      · exact absurd (ha c) hx
    · left
      intro c
      rcases hp c with ⟨a, id, ha, hid, _⟩ | ⟨_, he⟩
      · exact absurd ⟨a, ha, by rw [hid]; rfl⟩ (hn c)
      · exact he
  | some impl =>
    by_cases h1 : impl = py! "cpp" ∨ impl = py! "c++"
    · right
      intro c
      obtain ⟨_, id, _, _, he⟩ := (C113_cpp h1 m).2.1 r h c
      exact ⟨id, he⟩
    · by_cases h2 : impl = py! "python"
      · subst h2
        obtain ⟨r', hr, hp⟩ := C113_python m
        rw [h] at hr
        cases hr
        exact .inl hp
      · rw [C113_other ⟨fun e => h1 (.inl e), fun e => h1 (.inr e), h2⟩] at h
        cases h

/-! ### Examples -/

/-- a C++ module with all classes -/
def full : Module := some fun n =>
  if n = py! "PythonRuntimeException" then some 0
  else if n = py! "BitBuffer" then some 1
  else if n = py! "BitStreamReader" then some 2
  else if n = py! "BitStreamWriter" then some 3 else none

/-- a C++ module without a writer -/
def incomplete : Module := some fun n =>
  if n = py! "PythonRuntimeException" then some 0
  else if n = py! "BitBuffer" then some 1
  else if n = py! "BitStreamReader" then some 2 else none

example : ∀ c, Available full c := by
  intro c
  cases c <;> exact ⟨_, rfl, by decide +kernel⟩

example : importZserio (some (py! "cpp")) full = .ok ⟨.cpp 0, .cpp 1, .cpp 2, .cpp 3⟩ := by decide +kernel

example : importZserio (some (py! "c++")) incomplete = .error (.notAvailable (.cpp 0) (py! "BitStreamWriter")) := by decide +kernel

/-! ### Deviations -/

/-- The documentation of `import_cpp_class` says that the C++ implementation is just not loaded if the variable is set to anything else, e.g.
to the empty text; but the library cannot be imported then. -/
theorem C113_other_deviates : ∃ impl, impl ≠ py! "cpp" ∧ ∀ m, ¬ ∃ r, importZserio (some impl) m = .ok r :=
  ⟨[], by decide, fun m => by rw [C113_other (by decide)]; rintro ⟨_, h⟩; cases h⟩

/-- With a C++ module which has not all classes, as that of another version may be, the library silently mixes both implementations. -/
theorem C113_one_implementation_deviates : ∃ m r, importZserio none m = .ok r ∧ (∃ id, r.reader = .cpp id) ∧ r.writer = .python .writer :=
  ⟨incomplete, ⟨.cpp 0, .cpp 1, .cpp 2, .python .writer⟩, by decide +kernel, ⟨2, rfl⟩, rfl⟩

end Zserio.CppBind
