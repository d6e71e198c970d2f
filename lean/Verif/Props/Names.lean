import Verif.Lemmas.GeneratedNames
/-
C68: the members of a generated class. C70: the conversion of names to snake case.
-/
set_option linter.unusedSimpArgs false
namespace Zserio.Names

/-- **C70**: names are converted to snake case: an underscore in front of each letter at which a word begins, everything
in lower case (modules, properties, functions, methods, arguments) or in upper case (constants, items of enums, values of
bitmasks). The shortcut for names which are all in the right case already makes no difference. -/
theorem C70_snake_case (s : PyStr) : toLowerSnakeCase s = lowerSnake s ∧ toUpperSnakeCase s = upperSnake s :=
  ⟨toLowerSnakeCase_eq s, toUpperSnakeCase_eq s⟩

/-- **C70**: the conversion of an identifier is an identifier without upper case letters (without lower case letters),
it differs from it by underscores and by case only, and converting it again changes nothing. -/
theorem C70_identifier (s : PyStr) (h : IsIdentifier s) :
    IsIdentifier (toLowerSnakeCase s) ∧ IsIdentifier (toUpperSnakeCase s) ∧
    (∀ c ∈ toLowerSnakeCase s, ¬ UpperCase c) ∧ (∀ c ∈ toUpperSnakeCase s, ¬ LowerCase c) ∧
    toLowerSnakeCase (toLowerSnakeCase s) = toLowerSnakeCase s ∧
    toUpperSnakeCase (toUpperSnakeCase s) = toUpperSnakeCase s ∧
    (toLowerSnakeCase s).filter (· ≠ ch! '_') = (s.map lowerCaseOf).filter (· ≠ ch! '_') := by
  simp only [toLowerSnakeCase_eq, toUpperSnakeCase_eq]
  refine ⟨identifier_lowerSnake h, identifier_upperSnake h, lowerSnake_no_upper s, upperSnake_no_lower s,
    lowerSnake_lowerSnake s, upperSnake_of_no_lower (upperSnake_no_lower s), ?_⟩
  have key : ∀ (s : PyStr) p, ((separated p s).map lowerCaseOf).filter (· ≠ ch! '_') =
      (s.map lowerCaseOf).filter (· ≠ ch! '_') := by
    intro s
    induction s with
    | nil => intro p; cases p <;> rfl
    | cons c r ih =>
      intro p
      have hu : lowerCaseOf (ch! '_') = ch! '_' := by decide
      cases p with
      | none => simp only [separated, List.map_cons, List.filter_cons, ih]
      | some p => simp only [separated]; split <;> simp only [List.map_cons, List.filter_cons, ih, hu] <;> simp
  exact key s none

/-- **C70**: two names are the same in lower snake case if and only if they are the same in upper snake case: a check of the
one is a check of the other. The module of a constant is the one of its name. -/
theorem C70_same (s t : PyStr) :
    (toLowerSnakeCase s = toLowerSnakeCase t ↔ toUpperSnakeCase s = toUpperSnakeCase t) ∧
    symbolToModule (constantToSymbol s) = symbolToModule s := by
  simp only [toLowerSnakeCase_eq, toUpperSnakeCase_eq, symbolToModule, constantToSymbol]
  exact ⟨lowerSnake_eq_iff s t, lowerSnake_upperSnake s⟩

/-- the conversion of some names -/
example : toLowerSnakeCase (py! "someJSONStringA1Bc_dE") = py! "some_json_string_a1_bc_d_e" ∧
    toUpperSnakeCase (py! "someJSONStringA1Bc_dE") = py! "SOME_JSON_STRING_A1_BC_D_E" ∧
    toLowerSnakeCase (py! "ABC1") = py! "abc1" := by decide +kernel

/-- **C68**: the checks of the names of a compound type find exactly the names which are the same in Python: the check of the
symbols succeeds if and only if the names of its parameters, fields and functions are different in snake case. -/
theorem C68_scope (c : CompoundDecl) :
    checkScopeSymbols c = .ok () ↔ (c.symbols.map lowerSnake).Nodup := by
  unfold checkScopeSymbols
  rw [addSymbols_ok, show toLowerSnakeCase = lowerSnake from funext toLowerSnakeCase_eq]
  simp

/-- **C68** (partial): if the names of a structure, choice or union pass the checks, Python can define the generated class,
for all options of the generator, and then each parameter and each field is reached by the property named after it, each
function by the method named after it, each optional field of a structure by its two indicators and its resetter, each
extended field by its indicator, and no method of the API is replaced by one of them.

What is missing, because the checks do not ensure it (see the counterexamples below): no name may be in snake case a keyword
(`hk`) or `property` (`hp`) or the name of the resetter of an optional field (`hr`). -/
theorem C68_members_partial (o : GenOptions) (c : CompoundDecl) (hi : ∀ s ∈ c.symbols, IsIdentifier s)
    (hc : checkCompound c = .ok ())
    (hk : ∀ s ∈ c.symbols, lowerSnake s ∉ pythonKeywords)
    (hp : ∀ s ∈ c.symbols, lowerSnake s ≠ py! "property")
    (hr : ∀ f ∈ c.fields, f.isOptional = true → ∀ s ∈ c.symbols, lowerSnake s ≠ py! "reset_" ++ lowerSnake f.name) :
    ∃ ns, defineClass (classBody o c) = .ok ns ∧
      (∀ p ∈ c.params, ns (lowerSnake p) = some (.property (.paramGetter p) none)) ∧
      (∀ f ∈ c.fields, ns (lowerSnake f.name) =
        some (.property (.fieldGetter f.name) (if o.writer then some (.fieldSetter f.name) else none))) ∧
      (∀ f ∈ c.functions, ns (lowerSnake f) = some (.function (.function f))) ∧
      (∀ f ∈ c.fields, c.kind = .structure → f.isOptional = true →
        ns (py! "is_" ++ lowerSnake f.name ++ py! "_used") = some (.function (.isUsed f.name)) ∧
        (o.writer = true → ns (py! "is_" ++ lowerSnake f.name ++ py! "_set") = some (.function (.isSet f.name)) ∧
          ns (py! "reset_" ++ lowerSnake f.name) = some (.function (.resetter f.name)))) ∧
      (∀ f ∈ c.fields, c.kind = .structure → f.isExtended = true →
        ns (py! "is_" ++ lowerSnake f.name ++ py! "_present") = some (.function (.isPresent f.name))) ∧
      (c.kind = .union → ∀ f ∈ c.fields, ns (py! "CHOICE_" ++ upperSnake f.name) = some (.constant (.choiceTag f.name))) ∧
      ns (py! "from_reader") = some (.classMethod (.api (py! "from_reader"))) ∧
      (o.typeInfo = true → ns (py! "type_info") = some (.staticMethod (.api (py! "type_info")))) ∧
      (c.kind ≠ .structure → ns (py! "choice_tag") = some (.property (.api (py! "choice_tag")) none)) ∧
      (∀ m ∈ [py! "__eq__", py! "__hash__", py! "bitsizeof", py! "read"], ns m = some (.function (.api m))) ∧
      (o.writer = true → ∀ m ∈ [py! "initialize_offsets", py! "write"], ns m = some (.function (.api m))) ∧
      (o.packed = true → ns (py! "from_reader_packed") = some (.classMethod (.api (py! "from_reader_packed"))) ∧
        ns (py! "ZserioPackingContext") = some (.innerClass (.api (py! "ZserioPackingContext"))) ∧
        ∀ m ∈ [py! "init_packing_context", py! "bitsizeof_packed", py! "read_packed"],
          ns m = some (.function (.api m))) ∧
      (o.writer = true → o.packed = true →
        ∀ m ∈ [py! "initialize_offsets_packed", py! "write_packed"], ns m = some (.function (.api m))) := by
  obtain ⟨-, -, -, hn, hg⟩ := checkCompound_ok hc
  have hu : ∀ s ∈ c.symbols, UserName c (lowerSnake s) := by
    intro s hs
    obtain ⟨h1, h2, h3⟩ := checkGeneratedName_ok (hg s hs)
    exact ⟨h1, lowerSnake_no_upper s, h2, h3, fun f hf ho => hr f hf ho s hs⟩
  obtain ⟨ns, h1, h2, -⟩ := defineClass_groups (gs := groups o c)
    (fun g h => (groups_source h).pythonName hi hk) (groups_pairwise hp)
    (fun g h g' h' => (groups_source h).functional hn hu (groups_source h'))
  rw [groups_stmts] at h1
  have H : ∀ g ∈ headGroups o c, ns g.1 = some g.2 := fun g hg => h2 g (by unfold groups; simp [hg])
  have T : ∀ g ∈ tailGroups o c.kind, ns g.1 = some g.2 := fun g hg => h2 g (by unfold groups; simp [hg])
  have F : ∀ f ∈ c.fields, ∀ g ∈ fieldGroups o c.kind f, ns g.1 = some g.2 := fun f hf g hg =>
    h2 g (by unfold groups; simp only [List.mem_append, List.mem_flatMap]; exact Or.inr (Or.inr (Or.inl ⟨f, hf, hg⟩)))
  refine ⟨ns, h1, ?_, ?_, ?_, ?_, ?_, ?_, ?_, ?_, ?_, ?_, ?_, ?_, ?_⟩
  · intro p hp
    exact h2 (paramGroup p) (by unfold groups; simp only [List.mem_append, List.mem_map]; exact Or.inr (Or.inl ⟨p, hp, rfl⟩))
  · intro f hf
    exact F f hf (lowerSnake f.name, _) (by simp [fieldGroups])
  · intro f hf
    exact h2 (functionGroup f) (by
      unfold groups; simp only [List.mem_append, List.mem_map]; exact Or.inr (Or.inr (Or.inr (Or.inl ⟨f, hf, rfl⟩))))
  · intro f hf hk ho
    refine ⟨?_, fun hw => ⟨?_, ?_⟩⟩
    · have := F f hf (isUsedName f.name, .function (.isUsed f.name)) (by simp [fieldGroups, gcond, hk, ho])
      simpa only [isUsedName, toLowerSnakeCase_eq] using this
    · have := F f hf (isSetName f.name, .function (.isSet f.name)) (by simp [fieldGroups, gcond, hk, ho, hw])
      simpa only [isSetName, toLowerSnakeCase_eq] using this
    · have := F f hf (resetterName f.name, .function (.resetter f.name)) (by simp [fieldGroups, gcond, hk, ho, hw])
      simpa only [resetterName, toLowerSnakeCase_eq] using this
  · intro f hf hk he
    have := F f hf (isPresentName f.name, .function (.isPresent f.name)) (by simp [fieldGroups, gcond, hk, he])
    simpa only [isPresentName, toLowerSnakeCase_eq] using this
  · intro hk f hf
    have := h2 (choiceTagName f.name, .constant (.choiceTag f.name)) (by
      unfold groups; simp only [List.mem_append]
      refine Or.inr (Or.inr (Or.inr (Or.inr (Or.inr (Or.inr ?_)))))
      unfold constantGroups
      rw [if_pos hk, List.mem_append, List.mem_map]
      exact Or.inl ⟨f, hf, rfl⟩)
    simpa only [choiceTagName_eq] using this
  · exact H (_, _) (by simp [headGroups])
  · intro ht
    exact H (_, _) (by simp [headGroups, gcond, ht])
  · intro hk
    exact T (_, _) (by simp [tailGroups, gcond, hk])
  · intro m hm
    simp only [List.mem_cons, List.not_mem_nil, or_false] at hm
    rcases hm with rfl | rfl | rfl | rfl
    · exact H (apiGroup _) (by simp [headGroups])
    · exact H (apiGroup _) (by simp [headGroups])
    · exact T (apiGroup _) (by simp [tailGroups])
    · exact T (apiGroup _) (by simp [tailGroups])
  · intro hw m hm
    simp only [List.mem_cons, List.not_mem_nil, or_false] at hm
    rcases hm with rfl | rfl
    · exact T (apiGroup _) (by simp [tailGroups, gcond, hw])
    · exact T (apiGroup _) (by simp [tailGroups, gcond, hw])
  · intro hpk
    refine ⟨H (_, _) (by simp [headGroups, gcond, hpk]), T (_, _) (by simp [tailGroups, gcond, hpk]), ?_⟩
    intro m hm
    simp only [List.mem_cons, List.not_mem_nil, or_false] at hm
    rcases hm with rfl | rfl | rfl
    · exact T (apiGroup _) (by simp [tailGroups, gcond, hpk])
    · exact T (apiGroup _) (by simp [tailGroups, gcond, hpk])
    · exact T (apiGroup _) (by simp [tailGroups, gcond, hpk])
  · intro hw hpk m hm
    simp only [List.mem_cons, List.not_mem_nil, or_false] at hm
    rcases hm with rfl | rfl
    · exact T (apiGroup _) (by simp [tailGroups, gcond, hw, hpk])
    · exact T (apiGroup _) (by simp [tailGroups, gcond, hw, hpk])

/-- **C68** (partial): the attributes the generated code assigns to objects are no names of the class: an assignment replaces
neither a property nor a method. What is missing: no field or parameter may be named, in snake case, like a helper for the
offsets of an array, `offset_checker_a` or `offset_setter_a` for an array `a_` (`ho`, see the counterexample below). -/
theorem C68_attributes_partial (o : GenOptions) (c : CompoundDecl) (hc : checkCompound c = .ok ())
    (ho : ∀ f ∈ c.fields, f.hasIndexedOffset = true → ∀ s ∈ c.symbols,
      lowerSnake s ++ py! "_" ≠ py! "offset_checker_" ++ lowerSnake f.name ∧
      lowerSnake s ++ py! "_" ≠ py! "offset_setter_" ++ lowerSnake f.name)
    (ns : Namespace Part) (hns : defineClass (classBody o c) = .ok ns) :
    ∀ a ∈ attributes c, ns a = none := by
  obtain ⟨-, -, -, hn, hg⟩ := checkCompound_ok hc
  have exec_none : ∀ (l : List (ClassStmt Part)) (ns ns' : Namespace Part), execStmts ns l = .ok ns' →
      ∀ a, (∀ s ∈ l, s.bound ≠ a) → ns' a = ns a := by
    intro l
    induction l with
    | nil => intro ns ns' h a _; simp only [execStmts] at h; cases h; rfl
    | cons s l ih =>
      intro ns ns' h a ha
      simp only [execStmts] at h
      split at h
      · rename_i ns1 h1
        rw [ih ns1 ns' h a (fun t ht => ha t (by simp [ht]))]
        have hs := ha s (by simp)
        cases s with
        | defn d n b =>
          simp only [ClassStmt.exec, Except.map] at h1
          split at h1
          · cases h1
          · cases h1
            simp only [Namespace.bind]
            rw [if_neg (fun h => hs h.symm)]
        | innerClass n b => simp only [ClassStmt.exec] at h1; cases h1; simp only [Namespace.bind]; rw [if_neg (fun h => hs h.symm)]
        | assign n b => simp only [ClassStmt.exec] at h1; cases h1; simp only [Namespace.bind]; rw [if_neg (fun h => hs h.symm)]
      · cases h
  have hns' : execStmts (fun _ => none) (classBody o c) = .ok ns := by
    unfold defineClass at hns
    split at hns
    · exact hns
    · cases hns
  intro a ha
  apply exec_none _ _ _ hns'
  intro st hst hb
  rw [← groups_stmts, List.mem_flatMap] at hst
  obtain ⟨g, hgm, hst⟩ := hst
  rw [bound_groupStmts hst] at hb
  have hs := groups_source hgm
  have start : ∀ s ∈ c.symbols, ∀ r, lowerSnake s ≠ ch! '_' :: r := fun s h => (checkGeneratedName_ok (hg s h)).1
  have shape : (∃ s ∈ c.symbols, a = py! "_" ++ lowerSnake s ++ py! "_") ∨ a = py! "_num_extended_fields" ∨
      a = py! "_choice" ∨ a = py! "_choice_tag" := by
    simp only [attributes, List.mem_append, List.mem_map] at ha
    rcases ha with ⟨p, hp, rfl⟩ | ha
    · exact Or.inl ⟨p, by simp [CompoundDecl.symbols, hp], by simp [memberName, toLowerSnakeCase_eq]⟩
    · split at ha
      · simp only [List.mem_append, List.mem_map] at ha
        rcases ha with ha | ⟨f, hf, rfl⟩
        · split at ha
          · simp at ha; simp [ha]
          · simp at ha
        · exact Or.inl ⟨f.name, fields_symbols hf, by simp [memberName, toLowerSnakeCase_eq]⟩
      · simp at ha; simp [ha]
      · simp at ha; rcases ha with rfl | rfl <;> simp
  have fixed : ∀ g ∈ fixedTable c.kind, g.1.head? = some (ch! '_') → (py! "__").isPrefixOf g.1 = true := by
    cases c.kind <;> decide +kernel
  rcases shape with ⟨s, hs', rfl⟩ | hrest
  · cases hs with
    | fixed h =>
      have := fixed _ h (by rw [hb]; rfl)
      rw [hb] at this
      have h2 := start s hs'
      cases hl : lowerSnake s with
      | nil => rw [hl] at this hb; revert hb; exact fun hb => absurd hb (by
          have : ∀ g ∈ fixedTable c.kind, g.1 ≠ py! "_" ++ [] ++ py! "_" := by cases c.kind <;> decide +kernel
          exact this _ h)
      | cons x r =>
        rw [hl] at this
        simp [List.isPrefixOf] at this
        exact h2 r (by rw [hl, ← this])
    | user h =>
      obtain ⟨t, ht, h1⟩ := user_name h
      rw [h1] at hb
      exact start t ht _ hb
    | checker hf h =>
      simp only [offsetCheckerName, toLowerSnakeCase_eq] at hb
      exact (ho _ hf h s hs').1 (by simpa using hb.symm)
    | setter hf h =>
      simp only [offsetSetterName, toLowerSnakeCase_eq] at hb
      exact (ho _ hf h s hs').2 (by simpa using hb.symm)
    | factory hf =>
      have hz : ch! 'Z' ∈ lowerSnake s ++ py! "_" := by
        simp only [elementFactoryName, List.cons_append, List.nil_append, List.cons.injEq, true_and] at hb
        rw [← hb]; simp
      rw [List.mem_append] at hz
      rcases hz with hz | hz
      · exact lowerSnake_no_upper s _ hz (by decide)
      · simp at hz
    | _ => simp [isPresentName, isUsedName, isSetName, resetterName, choiceTagName] at hb
  · have concrete : ∀ g ∈ fixedTable c.kind, g.1 ≠ py! "_num_extended_fields" ∧ g.1 ≠ py! "_choice" ∧
        g.1 ≠ py! "_choice_tag" := by cases c.kind <;> decide +kernel
    have headU : ∃ r, a = ch! '_' :: r := by rcases hrest with rfl | rfl | rfl <;> exact ⟨_, rfl⟩
    cases hs with
    | fixed h =>
      have := concrete _ h
      rcases hrest with rfl | rfl | rfl
      · exact this.1 hb
      · exact this.2.1 hb
      · exact this.2.2 hb
    | user h =>
      obtain ⟨t, ht, h1⟩ := user_name h
      obtain ⟨r, hr⟩ := headU
      rw [h1, hr] at hb
      exact start t ht _ hb
    | _ =>
      rcases hrest with rfl | rfl | rfl <;>
        simp [isPresentName, isUsedName, isSetName, resetterName, choiceTagName, offsetCheckerName, offsetSetterName,
          elementFactoryName] at hb

/-- **C68**: the arguments of the constructor and of `from_reader` and `from_reader_packed` are different Python names. -/
theorem C68_arguments (c : CompoundDecl) (hi : ∀ s ∈ c.symbols, IsIdentifier s) (hc : checkCompound c = .ok ()) :
    (constructorArguments c).Nodup ∧ (fromReaderPackedArguments c).Nodup ∧
    ∀ a ∈ constructorArguments c ++ fromReaderPackedArguments c, IsPythonName a := by
  obtain ⟨-, -, -, hn, hg⟩ := checkCompound_ok hc
  have start : ∀ s ∈ c.symbols, ∀ r, lowerSnake s ≠ ch! '_' :: r := fun s h => (checkGeneratedName_ok (hg s h)).1
  have arg : ∀ s, argumentName s = lowerSnake s ++ py! "_" := fun s => by simp [argumentName, toLowerSnakeCase_eq]
  have hpar : ∀ p ∈ c.params, p ∈ c.symbols := fun p hp => by simp [CompoundDecl.symbols, hp]
  have all : (c.symbols.map argumentName).Nodup := by
    have : c.symbols.map argumentName = (c.symbols.map lowerSnake).map (· ++ py! "_") := by
      simp [List.map_map, Function.comp_def, arg]
    rw [this]
    exact hn.map (fun a b h => List.append_cancel_right h)
  have fields : (c.params.map argumentName ++ c.fields.map (argumentName ·.name)).Nodup := by
    have := all
    simp only [CompoundDecl.symbols, List.map_append, List.map_map, Function.comp_def] at this
    exact (List.nodup_append.1 this).1
  have under : ∀ (s x : PyStr), x.getLast? ≠ some (ch! '_') → argumentName s ≠ x := by
    intro s x hx h
    rw [arg] at h
    apply hx
    rw [← h]
    simp
  have mem : ∀ a ∈ c.params.map argumentName ++ c.fields.map (argumentName ·.name), ∃ s ∈ c.symbols, a = argumentName s := by
    intro a ha
    simp only [List.mem_append, List.mem_map] at ha
    rcases ha with ⟨p, hp, rfl⟩ | ⟨f, hf, rfl⟩
    · exact ⟨p, hpar p hp, rfl⟩
    · exact ⟨f.name, fields_symbols hf, rfl⟩
  have keywords : ∀ k ∈ pythonKeywords, k.getLast? = some (ch! '_') → k.head? = some (ch! '_') := by decide +kernel
  have name : ∀ s ∈ c.symbols, IsPythonName (argumentName s) := by
    intro s hs
    rw [arg]
    refine ⟨(identifier_lowerSnake (hi s hs)).append (by decide), fun hk => ?_⟩
    have := keywords _ hk (by simp)
    cases hl : lowerSnake s with
    | nil => have := identifier_lowerSnake (hi s hs); rw [hl] at this; exact this
    | cons a r =>
      rw [hl] at this
      simp at this
      exact start s hs r (by rw [hl, this])
  refine ⟨?_, ?_, ?_⟩
  · unfold constructorArguments
    rw [List.nodup_cons]
    refine ⟨fun h => ?_, fields⟩
    obtain ⟨s, _, hs⟩ := mem _ h
    exact under s _ (by decide) hs.symm
  · unfold fromReaderPackedArguments
    rw [List.nodup_append]
    refine ⟨by decide, (List.nodup_append.1 fields).1, ?_⟩
    intro a ha b hb hab
    rw [List.mem_map] at hb
    obtain ⟨p, _, rfl⟩ := hb
    refine under p a ?_ hab.symm
    simp only [List.mem_cons, List.not_mem_nil, or_false] at ha
    rcases ha with rfl | rfl | rfl <;> decide
  · intro a ha
    simp only [constructorArguments, fromReaderPackedArguments, List.mem_append, List.mem_cons, List.not_mem_nil,
      or_false] at ha
    rcases ha with (rfl | ha) | ((rfl | rfl | rfl) | ha)
    · decide +kernel
    · obtain ⟨s, hs, rfl⟩ := mem a (List.mem_append.2 ha)
      exact name s hs
    · decide +kernel
    · decide +kernel
    · decide +kernel
    · rw [List.mem_map] at ha
      obtain ⟨p, hp, rfl⟩ := ha
      exact name p (hpar p hp)

namespace Demo

/-- `struct S(uint8 numItems) { optional uint8 maxValue; uint8 items[numItems]; extend uint8 isLast; function uint8 getMax() … }`:
a structure all theorems about names apply to -/
def names : CompoundDecl where
  kind := .structure
  params := [py! "numItems"]
  fields := [{ name := py! "maxValue", isOptional := true },
    { name := py! "items", hasIndexedOffset := true, hasElementFactory := true },
    { name := py! "IsLast", isExtended := true }]
  functions := [py! "getMax"]

/-- the structure meets the hypotheses of the theorems -/
example : (∀ s ∈ names.symbols, IsIdentifier s) ∧ checkCompound names = .ok () ∧
    (∀ s ∈ names.symbols, lowerSnake s ∉ pythonKeywords) ∧ (∀ s ∈ names.symbols, lowerSnake s ≠ py! "property") ∧
    (∀ f ∈ names.fields, f.isOptional = true → ∀ s ∈ names.symbols, lowerSnake s ≠ py! "reset_" ++ lowerSnake f.name) ∧
    (∀ f ∈ names.fields, f.hasIndexedOffset = true → ∀ s ∈ names.symbols,
      lowerSnake s ++ py! "_" ≠ py! "offset_checker_" ++ lowerSnake f.name ∧
      lowerSnake s ++ py! "_" ≠ py! "offset_setter_" ++ lowerSnake f.name) := by decide +kernel

/-- what a name refers to after the definition of a class -/
def lookup (r : Except ClassError (Namespace Part)) (n : PyStr) : Option (Option (ClassEntry Part)) :=
  match r with
  | .ok ns => some (ns n)
  | .error _ => none

/-- the error of the definition of a class -/
def errorOf (r : Except ClassError (Namespace Part)) : Option ClassError :=
  match r with
  | .ok _ => none
  | .error e => some e

theorem lookup_eq {r : Except ClassError (Namespace Part)} {n : PyStr} {x} (h : lookup r n = some x) :
    ∃ ns, r = .ok ns ∧ ns n = x := by
  cases r with
  | ok ns => exact ⟨ns, rfl, by simpa [lookup] using h⟩
  | error e => simp [lookup] at h

theorem errorOf_eq {r : Except ClassError (Namespace Part)} {e} (h : errorOf r = some e) : r = .error e := by
  cases r with
  | ok ns => simp [errorOf] at h
  | error e' => simp [errorOf] at h; rw [h]

/-- `struct S { uint8 Class; }` passes the checks, which compare the name of the schema with the keywords, but the generated
module is no Python: the property is called `class`. -/
theorem C68_keyword :
    checkCompound { kind := .structure, fields := [{ name := py! "Class" }] } = .ok () ∧
    defineClass (classBody {} { kind := .structure, fields := [{ name := py! "Class" }] }) = .error .syntaxError :=
  ⟨by decide +kernel, errorOf_eq (by decide +kernel)⟩

/-- `struct S { uint8 property; uint8 value; }` passes the checks, but the definition of the class fails: the second
`@property` is the property of the first field, which cannot be called. -/
theorem C68_property :
    checkCompound { kind := .structure, fields := [{ name := py! "property" }, { name := py! "value" }] } = .ok () ∧
    defineClass (classBody {} { kind := .structure, fields := [{ name := py! "property" }, { name := py! "value" }] })
      = .error (.decoratorShadowed (py! "property")) :=
  ⟨by decide +kernel, errorOf_eq (by decide +kernel)⟩

/-- `struct S { optional uint8 a; function uint8 reset_a() … }` passes the checks, but the resetter of `a` is replaced by
the function: `reset_a()` does not reset the field. -/
theorem C68_resetter :
    let c : CompoundDecl := { kind := .structure, fields := [{ name := py! "a", isOptional := true }],
                              functions := [py! "reset_a"] }
    checkCompound c = .ok () ∧
    ∃ ns, defineClass (classBody {} c) = .ok ns ∧ ns (py! "reset_a") = some (.function (.function (py! "reset_a"))) :=
  ⟨by decide +kernel, lookup_eq (by decide +kernel)⟩

/-- `struct S { uint32 offsets[]; offsets[@index]: uint8 a_[]; uint8 offset_checker_a; }` passes the checks, but the attribute
which holds the value of `offset_checker_a` has the name of the method which checks the offsets of `a_`. -/
theorem C68_offset_checker :
    let c : CompoundDecl := { kind := .structure, fields := [{ name := py! "offsets" },
                              { name := py! "a_", hasIndexedOffset := true }, { name := py! "offset_checker_a" }] }
    checkCompound c = .ok () ∧ py! "_offset_checker_a_" ∈ attributes c ∧
    ∃ ns, defineClass (classBody {} c) = .ok ns ∧
      ns (py! "_offset_checker_a_") = some (.function (.offsetChecker (py! "a_"))) :=
  ⟨by decide +kernel, by decide +kernel, lookup_eq (by decide +kernel)⟩

end Demo

end Zserio.Names
