import Verif.Model.ClashCheckers
import Verif.Lemmas.SnakeCase
import Verif.Lemmas.PyClass
/-
What passing the checkers means, and the body of a generated class as a list of groups.
-/
set_option linter.unusedSimpArgs false
namespace Zserio.Names

/-! ### checkers -/

theorem checkAll_ok {α : Type} {f : α → Except ClashError Unit} {l : List α} :
    checkAll f l = .ok () ↔ ∀ a ∈ l, f a = .ok () := by
  induction l with
  | nil => simp [checkAll]
  | cons a l ih =>
    simp only [checkAll, List.forall_mem_cons]
    cases h : f a with
    | error e => simp
    | ok u => simp [ih]

theorem addSymbols_ok {g : PyStr → PyStr} {e : PyStr → ClashError} {l : List PyStr} : ∀ {seen : List PyStr},
    addSymbols g e seen l = .ok () ↔ (l.map g).Nodup ∧ ∀ s ∈ l, g s ∉ seen := by
  induction l with
  | nil => simp [addSymbols]
  | cons s l ih =>
    intro seen
    simp only [addSymbols]
    by_cases h : g s ∈ seen
    · rw [if_pos h]
      simp [h]
    · rw [if_neg h, ih]
      simp only [List.map_cons, List.nodup_cons, List.mem_map, List.mem_cons, forall_eq_or_imp]
      constructor
      · rintro ⟨h1, h2⟩
        refine ⟨⟨?_, h1⟩, h, fun t ht => fun hc => h2 t ht (Or.inr hc)⟩
        rintro ⟨t, ht, he⟩
        exact h2 t ht (Or.inl he)
      · rintro ⟨⟨h1, h2⟩, _, h3⟩
        refine ⟨h2, fun t ht hc => ?_⟩
        rcases hc with hc | hc
        · exact h1 ⟨t, ht, hc⟩
        · exact h3 t ht hc

theorem checkCompound_ok {c : CompoundDecl} (h : checkCompound c = .ok ()) :
    (∀ s ∈ c.symbols, validateIdentifier s = .ok ()) ∧ checkSymbolNames c = .ok () ∧
    (∀ s ∈ c.symbols, checkKeyword s = .ok ()) ∧ (c.symbols.map lowerSnake).Nodup ∧
    ∀ s ∈ c.symbols, checkGeneratedName c (lowerSnake s) = .ok () := by
  unfold checkCompound at h
  split at h
  · cases h
  rename_i h1
  split at h
  · cases h
  rename_i h2
  split at h
  · cases h
  rename_i h3
  split at h
  · cases h
  rename_i h4
  refine ⟨checkAll_ok.1 h1, h2, checkAll_ok.1 h3, ?_, ?_⟩
  · have := (addSymbols_ok.1 h4).1
    rwa [show toLowerSnakeCase = lowerSnake from funext toLowerSnakeCase_eq] at this
  · unfold checkGeneratedSymbols at h
    split at h
    · cases h
    rename_i h5
    split at h
    · cases h
    rename_i h6
    rw [checkAll_ok] at h h5 h6
    simp only [propertyName, functionName, toLowerSnakeCase_eq] at h h5 h6
    intro s hs
    unfold CompoundDecl.symbols at hs
    simp only [List.mem_append, List.mem_map] at hs
    rcases hs with (hs | ⟨f, hf, rfl⟩) | hs
    · exact h6 s hs
    · exact h5 f hf
    · exact h s hs

theorem checkGeneratedName_ok {c : CompoundDecl} {n : PyStr} (h : checkGeneratedName c n = .ok ()) :
    (∀ r, n ≠ ch! '_' :: r) ∧ n ∉ apiMethods c.kind ∧ n ∉ indicatorNames c := by
  unfold checkGeneratedName at h
  split at h
  · cases h
  rename_i h1
  split at h
  · cases h
  rename_i h2
  split at h
  · cases h
  rename_i h3
  refine ⟨?_, h2, h3⟩
  rintro r rfl
  exact h1 (by simp [List.isPrefixOf])

/-! ### groups -/

theorem flatMap_congr' {α β : Type} {l : List α} {f g : α → List β} (h : ∀ a ∈ l, f a = g a) :
    l.flatMap f = l.flatMap g := by
  induction l with
  | nil => rfl
  | cons a l ih => simp [h a (by simp), ih (fun b hb => h b (by simp [hb]))]


/-- the groups of a condition -/
def gcond (b : Bool) (l : List (PyStr × ClassEntry Part)) : List (PyStr × ClassEntry Part) := if b then l else []

theorem flatMap_gcond (b : Bool) (l : List (PyStr × ClassEntry Part)) :
    (gcond b l).flatMap groupStmts = cond b (l.flatMap groupStmts) := by
  cases b <;> rfl

theorem mem_gcond {b : Bool} {l : List (PyStr × ClassEntry Part)} {x} : x ∈ gcond b l ↔ b = true ∧ x ∈ l := by
  cases b <;> simp [gcond]

/-- the group of a method of the API -/
def apiGroup (n : PyStr) : PyStr × ClassEntry Part := (n, .function (.api n))

def headGroups (o : GenOptions) (c : CompoundDecl) : List (PyStr × ClassEntry Part) :=
  gcond (c.kind ≠ .structure || !c.params.isEmpty || !c.fields.isEmpty) [apiGroup (py! "__init__")]
  ++ [(py! "from_reader", .classMethod (.api (py! "from_reader")))]
  ++ gcond o.packed [(py! "from_reader_packed", .classMethod (.api (py! "from_reader_packed")))]
  ++ gcond o.typeInfo [(py! "type_info", .staticMethod (.api (py! "type_info")))]
  ++ [apiGroup (py! "__eq__"), apiGroup (py! "__hash__")]

def paramGroup (p : PyStr) : PyStr × ClassEntry Part := (lowerSnake p, .property (.paramGetter p) none)

def fieldGroups (o : GenOptions) (k : CompoundKind) (f : FieldDecl) : List (PyStr × ClassEntry Part) :=
  [(lowerSnake f.name, .property (.fieldGetter f.name) (if o.writer then some (.fieldSetter f.name) else none))]
  ++ gcond (k = .structure && f.isExtended) [(isPresentName f.name, .function (.isPresent f.name))]
  ++ gcond (k = .structure && f.isOptional) [(isUsedName f.name, .function (.isUsed f.name))]
  ++ gcond (k = .structure && f.isOptional && o.writer)
      [(isSetName f.name, .function (.isSet f.name)), (resetterName f.name, .function (.resetter f.name))]

def functionGroup (f : PyStr) : PyStr × ClassEntry Part := (lowerSnake f, .function (.function f))

def tailGroups (o : GenOptions) (k : CompoundKind) : List (PyStr × ClassEntry Part) :=
  gcond (k ≠ .structure) [(py! "choice_tag", .property (.api (py! "choice_tag")) none)]
  ++ gcond o.packed [apiGroup (py! "init_packing_context")]
  ++ [apiGroup (py! "bitsizeof")]
  ++ gcond o.packed [apiGroup (py! "bitsizeof_packed")]
  ++ gcond o.writer [apiGroup (py! "initialize_offsets")]
  ++ gcond (o.writer && o.packed) [apiGroup (py! "initialize_offsets_packed")]
  ++ [apiGroup (py! "read")]
  ++ gcond o.packed [apiGroup (py! "read_packed")]
  ++ gcond o.writer [apiGroup (py! "write")]
  ++ gcond (o.writer && o.packed) [apiGroup (py! "write_packed")]
  ++ gcond o.packed [(py! "ZserioPackingContext", .innerClass (.api (py! "ZserioPackingContext")))]

def helperGroups (o : GenOptions) (k : CompoundKind) (f : FieldDecl) : List (PyStr × ClassEntry Part) :=
  gcond (k = .structure && f.hasIndexedOffset) [(offsetCheckerName f.name, .function (.offsetChecker f.name))]
  ++ gcond (k = .structure && f.hasIndexedOffset && o.writer)
      [(offsetSetterName f.name, .function (.offsetSetter f.name))]
  ++ gcond f.hasElementFactory [(elementFactoryName f.name, .innerClass (.elementFactory f.name))]

def constantGroups (c : CompoundDecl) : List (PyStr × ClassEntry Part) :=
  if c.kind = .union then
    c.fields.map (fun f => (choiceTagName f.name, .constant (.choiceTag f.name)))
      ++ [(py! "UNDEFINED_CHOICE", .constant (.api (py! "UNDEFINED_CHOICE")))]
  else []

/-- the body of a generated class -/
def groups (o : GenOptions) (c : CompoundDecl) : List (PyStr × ClassEntry Part) :=
  headGroups o c ++ (c.params.map paramGroup ++ (c.fields.flatMap (fieldGroups o c.kind) ++
    (c.functions.map functionGroup ++ (tailGroups o c.kind ++
      (c.fields.flatMap (helperGroups o c.kind) ++ constantGroups c)))))

theorem groups_stmts (o : GenOptions) (c : CompoundDecl) : (groups o c).flatMap groupStmts = classBody o c := by
  unfold groups classBody
  simp only [List.flatMap_append, ← List.append_assoc]
  congr 1
  · congr 1
    · congr 1
      · congr 1
        · congr 1
          · congr 1
            · simp [headGroups, classHead, List.flatMap_append, flatMap_gcond, groupStmts, apiGroup, apiDef]
            · rw [List.flatMap_map]
              apply flatMap_congr'
              intro p _
              simp [paramGroup, paramStmts, groupStmts, propertyName, toLowerSnakeCase_eq]
          · rw [List.flatMap_assoc]
            apply flatMap_congr'
            intro f _
            simp only [fieldGroups, fieldStmts, List.flatMap_append, flatMap_gcond]
            congr 1
            cases o.writer <;> simp [groupStmts, propertyName, toLowerSnakeCase_eq, cond]
        · rw [List.flatMap_map]
          apply flatMap_congr'
          intro p _
          simp [functionGroup, functionStmts, groupStmts, functionName, toLowerSnakeCase_eq]
      · simp [tailGroups, classTail, List.flatMap_append, flatMap_gcond, groupStmts, apiGroup, apiDef]
    · rw [List.flatMap_assoc]
      apply flatMap_congr'
      intro f _
      simp [helperGroups, helperStmts, List.flatMap_append, flatMap_gcond, groupStmts]
  · unfold constantGroups unionConstants
    split
    · simp [List.flatMap_append, List.flatMap_map, groupStmts, List.flatMap_singleton', List.map_eq_flatMap, List.flatMap_assoc]
    · rfl

end Zserio.Names
