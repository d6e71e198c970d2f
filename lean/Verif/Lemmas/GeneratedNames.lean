import Verif.Lemmas.ClashCheckers
import Mathlib.Data.List.Nodup
/-
The names of a generated class are distinct, as far as the checkers make them so.
-/
set_option linter.unusedSimpArgs false
namespace Zserio.Names

/-- the names which do not depend on the schema -/
def fixedTable (k : CompoundKind) : List (PyStr × ClassEntry Part) :=
  [apiGroup (py! "__init__"), (py! "from_reader", .classMethod (.api (py! "from_reader"))),
   (py! "from_reader_packed", .classMethod (.api (py! "from_reader_packed"))),
   (py! "type_info", .staticMethod (.api (py! "type_info"))),
   apiGroup (py! "__eq__"), apiGroup (py! "__hash__"),
   apiGroup (py! "init_packing_context"), apiGroup (py! "bitsizeof"), apiGroup (py! "bitsizeof_packed"),
   apiGroup (py! "initialize_offsets"), apiGroup (py! "initialize_offsets_packed"),
   apiGroup (py! "read"), apiGroup (py! "read_packed"), apiGroup (py! "write"), apiGroup (py! "write_packed"),
   (py! "ZserioPackingContext", .innerClass (.api (py! "ZserioPackingContext"))),
   (py! "UNDEFINED_CHOICE", .constant (.api (py! "UNDEFINED_CHOICE")))]
  ++ if k = .structure then [] else [(py! "choice_tag", .property (.api (py! "choice_tag")) none)]

theorem fixed_functional (k : CompoundKind) :
    ∀ g ∈ fixedTable k, ∀ g' ∈ fixedTable k, g.1 = g'.1 → g.2 = g'.2 := by
  cases k <;> decide +kernel

theorem fixed_user (k : CompoundKind) :
    ∀ g ∈ fixedTable k, g.1.head? = some (ch! '_') ∨ (∃ c ∈ g.1, UpperCase c) ∨ g.1 ∈ apiMethods k := by
  cases k <;> decide +kernel

theorem fixed_prefix (k : CompoundKind) :
    ∀ g ∈ fixedTable k, (py! "is_").isPrefixOf g.1 = false ∧ (py! "reset_").isPrefixOf g.1 = false ∧
      (py! "_o").isPrefixOf g.1 = false ∧ (py! "_Z").isPrefixOf g.1 = false ∧ (py! "CHOICE_").isPrefixOf g.1 = false := by
  cases k <;> decide +kernel

theorem fixed_names (k : CompoundKind) : ∀ g ∈ fixedTable k, IsPythonName g.1 := by
  cases k <;> decide +kernel

theorem fixed_builtins (k : CompoundKind) : ∀ g ∈ fixedTable k,
    g.1 ≠ py! "property" ∧ g.1 ≠ py! "classmethod" ∧ g.1 ≠ py! "staticmethod" := by
  cases k <;> decide +kernel

theorem keyword_prefix : ∀ s ∈ pythonKeywords, (py! "is_").isPrefixOf s = false ∧ (py! "reset_").isPrefixOf s = false ∧
      (py! "_o").isPrefixOf s = false ∧ (py! "_Z").isPrefixOf s = false ∧ (py! "CHOICE_").isPrefixOf s = false := by
  decide +kernel

theorem head_fixed {o : GenOptions} {c : CompoundDecl} {g} (h : g ∈ headGroups o c) : g ∈ fixedTable c.kind := by
  simp only [headGroups, List.mem_append, mem_gcond, List.mem_cons, List.mem_singleton, List.not_mem_nil, or_false] at h
  simp only [fixedTable, List.mem_append, List.mem_cons]
  tauto

theorem tail_fixed {o : GenOptions} {k : CompoundKind} {g} (h : g ∈ tailGroups o k) : g ∈ fixedTable k := by
  simp only [tailGroups, List.mem_append, mem_gcond, List.mem_cons, List.mem_singleton, List.not_mem_nil, or_false] at h
  simp only [fixedTable, List.mem_append, List.mem_cons]
  rcases h with (((((((((h | h) | h) | h) | h) | h) | h) | h) | h) | h) | h
  · right
    have : k ≠ .structure := by simpa using h.1
    simp [this, h.2]
  all_goals left; tauto

/-- where the groups of a class come from -/
inductive Source (o : GenOptions) (c : CompoundDecl) : PyStr × ClassEntry Part → Prop
  | fixed {g} : g ∈ fixedTable c.kind → Source o c g
  | user {g} : g ∈ c.params.map paramGroup ++ c.fields.map (fun f => (lowerSnake f.name, ClassEntry.property (Part.fieldGetter f.name)
      (if o.writer then some (.fieldSetter f.name) else none))) ++ c.functions.map functionGroup → Source o c g
  | present {f} : f ∈ c.fields → f.isExtended = true → Source o c (isPresentName f.name, .function (.isPresent f.name))
  | used {f} : f ∈ c.fields → f.isOptional = true → Source o c (isUsedName f.name, .function (.isUsed f.name))
  | set {f} : f ∈ c.fields → f.isOptional = true → Source o c (isSetName f.name, .function (.isSet f.name))
  | reset {f} : f ∈ c.fields → f.isOptional = true → Source o c (resetterName f.name, .function (.resetter f.name))
  | checker {f} : f ∈ c.fields → f.hasIndexedOffset = true →
      Source o c (offsetCheckerName f.name, .function (.offsetChecker f.name))
  | setter {f} : f ∈ c.fields → f.hasIndexedOffset = true →
      Source o c (offsetSetterName f.name, .function (.offsetSetter f.name))
  | factory {f} : f ∈ c.fields → Source o c (elementFactoryName f.name, .innerClass (.elementFactory f.name))
  | tag {f} : f ∈ c.fields → Source o c (choiceTagName f.name, .constant (.choiceTag f.name))

theorem groups_source {o : GenOptions} {c : CompoundDecl} {g} (h : g ∈ groups o c) : Source o c g := by
  unfold groups at h
  simp only [List.mem_append] at h
  rcases h with h | h | h | h | h | h | h
  · exact .fixed (head_fixed h)
  · exact .user (by simp only [List.mem_append]; tauto)
  · rw [List.mem_flatMap] at h
    obtain ⟨f, hf, h⟩ := h
    simp only [fieldGroups, List.mem_append, mem_gcond, List.mem_cons, List.mem_singleton, List.not_mem_nil, or_false,
      Bool.and_eq_true] at h
    rcases h with ((rfl | ⟨h, rfl⟩) | ⟨h, rfl⟩) | ⟨h, rfl | rfl⟩
    · exact .user (by simp only [List.mem_append, List.mem_map]; exact Or.inl (Or.inr ⟨f, hf, rfl⟩))
    · exact .present hf h.2
    · exact .used hf h.2
    · exact .set hf h.1.2
    · exact .reset hf h.1.2
  · exact .user (by simp only [List.mem_append]; tauto)
  · exact .fixed (tail_fixed h)
  · rw [List.mem_flatMap] at h
    obtain ⟨f, hf, h⟩ := h
    simp only [helperGroups, List.mem_append, mem_gcond, List.mem_cons, List.mem_singleton, List.not_mem_nil, or_false,
      Bool.and_eq_true] at h
    rcases h with (⟨h, rfl⟩ | ⟨h, rfl⟩) | ⟨h, rfl⟩
    · exact .checker hf h.2
    · exact .setter hf h.1.2
    · exact .factory hf
  · unfold constantGroups at h
    split at h
    · simp only [List.mem_append, List.mem_map, List.mem_singleton] at h
      rcases h with ⟨f, hf, rfl⟩ | rfl
      · exact .tag hf
      · exact .fixed (by simp [fixedTable])
    · simp at h

theorem fields_symbols {c : CompoundDecl} {f : FieldDecl} (h : f ∈ c.fields) : f.name ∈ c.symbols := by
  simp only [CompoundDecl.symbols, List.mem_append, List.mem_map]; exact Or.inl (Or.inr ⟨f, h, rfl⟩)

theorem user_name {o : GenOptions} {c : CompoundDecl} {g}
    (h : g ∈ c.params.map paramGroup ++ c.fields.map (fun f => (lowerSnake f.name, ClassEntry.property (Part.fieldGetter f.name)
      (if o.writer then some (.fieldSetter f.name) else none))) ++ c.functions.map functionGroup) :
    ∃ s ∈ c.symbols, g.1 = lowerSnake s := by
  simp only [List.mem_append, List.mem_map] at h
  rcases h with (⟨p, hp, rfl⟩ | ⟨f, hf, rfl⟩) | ⟨f, hf, rfl⟩
  · exact ⟨p, by simp [CompoundDecl.symbols, hp], rfl⟩
  · exact ⟨f.name, fields_symbols hf, rfl⟩
  · exact ⟨f, by simp [CompoundDecl.symbols, hf], rfl⟩

theorem user_functional {o : GenOptions} {c : CompoundDecl} (hn : (c.symbols.map lowerSnake).Nodup)
    {g g' : PyStr × ClassEntry Part}
    (h : g ∈ c.params.map paramGroup ++ c.fields.map (fun f => (lowerSnake f.name, ClassEntry.property (Part.fieldGetter f.name)
      (if o.writer then some (.fieldSetter f.name) else none))) ++ c.functions.map functionGroup)
    (h' : g' ∈ c.params.map paramGroup ++ c.fields.map (fun f => (lowerSnake f.name, ClassEntry.property (Part.fieldGetter f.name)
      (if o.writer then some (.fieldSetter f.name) else none))) ++ c.functions.map functionGroup)
    (he : g.1 = g'.1) : g.2 = g'.2 := by
  refine congrArg Prod.snd (List.inj_on_of_nodup_map (f := Prod.fst) ?_ h h' he)
  simp only [CompoundDecl.symbols, List.map_append, List.map_map, Function.comp_def] at hn
  simpa only [List.map_append, List.map_map, Function.comp_def, paramGroup, functionGroup] using hn

/-- the names of two symbols are different in snake case -/
theorem symbol_inj {c : CompoundDecl} (hn : (c.symbols.map lowerSnake).Nodup) {s t : PyStr} (hs : s ∈ c.symbols)
    (ht : t ∈ c.symbols) (h : lowerSnake s = lowerSnake t) : s = t :=
  List.inj_on_of_nodup_map hn hs ht h

theorem choiceTagName_eq (s : PyStr) : choiceTagName s = py! "CHOICE_" ++ upperSnake s := by
  unfold choiceTagName toUpper
  rw [toLowerSnakeCase_eq, upperChar_eq]
  unfold lowerSnake upperSnake
  simp [List.map_map, Function.comp_def, upperCaseOf_lowerCaseOf]

theorem mem_indicators {c : CompoundDecl} {f : FieldDecl} (hf : f ∈ c.fields) :
    (f.isOptional = true → isUsedName f.name ∈ indicatorNames c ∧ isSetName f.name ∈ indicatorNames c) ∧
    (f.isExtended = true → isPresentName f.name ∈ indicatorNames c) := by
  unfold indicatorNames
  refine ⟨fun h => ⟨?_, ?_⟩, fun h => ?_⟩ <;> rw [List.mem_flatMap] <;> exact ⟨f, hf, by simp [h]⟩

/-- a name of the schema in Python is not any of the other names of the class -/
structure UserName (c : CompoundDecl) (n : PyStr) : Prop where
  start : ∀ r, n ≠ ch! '_' :: r
  lower : ∀ x ∈ n, ¬ UpperCase x
  api : n ∉ apiMethods c.kind
  indicator : n ∉ indicatorNames c
  reset : ∀ f ∈ c.fields, f.isOptional = true → n ≠ py! "reset_" ++ lowerSnake f.name

theorem UserName.not_source {o : GenOptions} {c : CompoundDecl} {g : PyStr × ClassEntry Part} (hu : UserName c g.1)
    (hs : Source o c g) : g ∈ c.params.map paramGroup ++ c.fields.map (fun f => (lowerSnake f.name, ClassEntry.property (Part.fieldGetter f.name)
      (if o.writer then some (.fieldSetter f.name) else none))) ++ c.functions.map functionGroup := by
  cases hs with
  | user h => exact h
  | fixed h =>
    exfalso
    rcases fixed_user _ _ h with h | ⟨x, hx, h⟩ | h
    · obtain ⟨n, e⟩ := g
      cases n with
      | nil => simp at h
      | cons a r => simp at h; exact hu.start r (by rw [h])
    · exact hu.lower x hx h
    · exact hu.api h
  | present hf h => exact absurd ((mem_indicators hf).2 h) hu.indicator
  | used hf h => exact absurd ((mem_indicators hf).1 h).1 hu.indicator
  | set hf h => exact absurd ((mem_indicators hf).1 h).2 hu.indicator
  | reset hf h => exact absurd (by simp [resetterName, toLowerSnakeCase_eq]) (hu.reset _ hf h)
  | checker hf h => exact absurd rfl (hu.start _)
  | setter hf h => exact absurd rfl (hu.start _)
  | factory hf => exact absurd rfl (hu.start _)
  | tag hf => exact absurd (by decide) (hu.lower (ch! 'C') (by simp [choiceTagName]))

theorem Source.functional {o : GenOptions} {c : CompoundDecl} (hn : (c.symbols.map lowerSnake).Nodup)
    (hu : ∀ s ∈ c.symbols, UserName c (lowerSnake s)) {g g' : PyStr × ClassEntry Part} (h : Source o c g)
    (h' : Source o c g') (he : g.1 = g'.1) : g.2 = g'.2 := by
  have key : ∀ {g g' : PyStr × ClassEntry Part}, Source o c g → Source o c g' → g.1 = g'.1 →
      (∃ s ∈ c.symbols, g.1 = lowerSnake s) → g.2 = g'.2 := by
    rintro g g' h h' he ⟨s, hs, h1⟩
    have a := UserName.not_source (h1 ▸ hu s hs) h
    have b := UserName.not_source (he ▸ h1 ▸ hu s hs) h'
    exact user_functional hn a b he
  have same : ∀ {f f' : FieldDecl}, f ∈ c.fields → f' ∈ c.fields → lowerSnake f.name = lowerSnake f'.name →
      f.name = f'.name := fun hf hf' => symbol_inj hn (fields_symbols hf) (fields_symbols hf')
  by_cases hug : ∃ s ∈ c.symbols, g.1 = lowerSnake s
  · exact key h h' he hug
  by_cases hug' : ∃ s ∈ c.symbols, g'.1 = lowerSnake s
  · exact (key h' h he.symm hug').symm
  cases h with
  | user h => exact absurd (user_name h) hug
  | fixed h =>
    have hp := fixed_prefix _ _ h
    cases h' with
    | fixed h' => exact fixed_functional _ _ h _ h' he
    | user h' => exact absurd (user_name h') hug'
    | _ =>
      exfalso
      simp [he, List.isPrefixOf, isPresentName, isUsedName, isSetName, resetterName, offsetCheckerName, offsetSetterName,
        elementFactoryName, choiceTagName] at hp
  | tag hf =>
    cases h' with
    | user h' => exact absurd (user_name h') hug'
    | fixed h' =>
      exfalso
      have hp := fixed_prefix _ _ h'
      simp [← he, List.isPrefixOf, choiceTagName] at hp
    | tag hf' =>
      simp only [choiceTagName_eq, List.append_cancel_left_eq] at he
      rw [same hf hf' ((lowerSnake_eq_iff _ _).2 he)]
    | _ =>
      exfalso
      simp [isPresentName, isUsedName, isSetName, resetterName, offsetCheckerName, offsetSetterName,
        elementFactoryName, choiceTagName] at he
  | present hf =>
    cases h' with
    | user h' => exact absurd (user_name h') hug'
    | fixed h' =>
      exfalso
      have hp := fixed_prefix _ _ h'
      simp [← he, List.isPrefixOf, isPresentName] at hp
    | present hf' =>
      simp only [isPresentName, toLowerSnakeCase_eq, List.append_cancel_left_eq, List.append_cancel_right_eq] at he
      rw [same hf hf' he]
    | used hf' | set hf' =>
      exfalso
      have hr := congrArg List.reverse he
      simp [isPresentName, isUsedName, isSetName] at hr
    | _ =>
      exfalso
      simp [isPresentName, isUsedName, isSetName, resetterName, offsetCheckerName, offsetSetterName,
        elementFactoryName, choiceTagName] at he
  | used hf =>
    cases h' with
    | user h' => exact absurd (user_name h') hug'
    | fixed h' =>
      exfalso
      have hp := fixed_prefix _ _ h'
      simp [← he, List.isPrefixOf, isUsedName] at hp
    | used hf' =>
      simp only [isUsedName, toLowerSnakeCase_eq, List.append_cancel_left_eq, List.append_cancel_right_eq] at he
      rw [same hf hf' he]
    | present hf' | set hf' =>
      exfalso
      have hr := congrArg List.reverse he
      simp [isPresentName, isUsedName, isSetName] at hr
    | _ =>
      exfalso
      simp [isPresentName, isUsedName, isSetName, resetterName, offsetCheckerName, offsetSetterName,
        elementFactoryName, choiceTagName] at he
  | set hf =>
    cases h' with
    | user h' => exact absurd (user_name h') hug'
    | fixed h' =>
      exfalso
      have hp := fixed_prefix _ _ h'
      simp [← he, List.isPrefixOf, isSetName] at hp
    | set hf' =>
      simp only [isSetName, toLowerSnakeCase_eq, List.append_cancel_left_eq, List.append_cancel_right_eq] at he
      rw [same hf hf' he]
    | present hf' | used hf' =>
      exfalso
      have hr := congrArg List.reverse he
      simp [isPresentName, isUsedName, isSetName] at hr
    | _ =>
      exfalso
      simp [isPresentName, isUsedName, isSetName, resetterName, offsetCheckerName, offsetSetterName,
        elementFactoryName, choiceTagName] at he
  | reset hf =>
    cases h' with
    | user h' => exact absurd (user_name h') hug'
    | fixed h' =>
      exfalso
      have hp := fixed_prefix _ _ h'
      simp [← he, List.isPrefixOf, resetterName] at hp
    | reset hf' =>
      simp only [resetterName, toLowerSnakeCase_eq, List.append_cancel_left_eq, List.append_cancel_right_eq] at he
      rw [same hf hf' he]
    | _ =>
      exfalso
      simp [isPresentName, isUsedName, isSetName, resetterName, offsetCheckerName, offsetSetterName,
        elementFactoryName, choiceTagName] at he
  | checker hf =>
    cases h' with
    | user h' => exact absurd (user_name h') hug'
    | fixed h' =>
      exfalso
      have hp := fixed_prefix _ _ h'
      simp [← he, List.isPrefixOf, offsetCheckerName] at hp
    | checker hf' =>
      simp only [offsetCheckerName, toLowerSnakeCase_eq, List.append_cancel_left_eq, List.append_cancel_right_eq] at he
      rw [same hf hf' he]
    | _ =>
      exfalso
      simp [isPresentName, isUsedName, isSetName, resetterName, offsetCheckerName, offsetSetterName,
        elementFactoryName, choiceTagName] at he
  | setter hf =>
    cases h' with
    | user h' => exact absurd (user_name h') hug'
    | fixed h' =>
      exfalso
      have hp := fixed_prefix _ _ h'
      simp [← he, List.isPrefixOf, offsetSetterName] at hp
    | setter hf' =>
      simp only [offsetSetterName, toLowerSnakeCase_eq, List.append_cancel_left_eq, List.append_cancel_right_eq] at he
      rw [same hf hf' he]
    | _ =>
      exfalso
      simp [isPresentName, isUsedName, isSetName, resetterName, offsetCheckerName, offsetSetterName,
        elementFactoryName, choiceTagName] at he
  | factory hf =>
    cases h' with
    | user h' => exact absurd (user_name h') hug'
    | fixed h' =>
      exfalso
      have hp := fixed_prefix _ _ h'
      simp [← he, List.isPrefixOf, elementFactoryName] at hp
    | factory hf' =>
      simp only [elementFactoryName, toLowerSnakeCase_eq, List.append_cancel_left_eq, List.append_cancel_right_eq] at he
      rw [same hf hf' he]
    | _ =>
      exfalso
      simp [isPresentName, isUsedName, isSetName, resetterName, offsetCheckerName, offsetSetterName,
        elementFactoryName, choiceTagName] at he

theorem IsIdentifier.append {p s : PyStr} (hp : IsIdentifier p) (hs : ∀ x ∈ s, IdPart x) : IsIdentifier (p ++ s) := by
  cases p with
  | nil => exact hp.elim
  | cons a r =>
    refine ⟨hp.1, fun x hx => ?_⟩
    have hx : x ∈ r ++ s := hx
    rw [List.mem_append] at hx
    rcases hx with hx | hx
    · exact hp.2 x hx
    · exact hs x hx

theorem IsIdentifier.parts {s : PyStr} (h : IsIdentifier s) : ∀ x ∈ s, IdPart x := by
  cases s with
  | nil => exact h.elim
  | cons a r =>
    intro x hx
    rw [List.mem_cons] at hx
    rcases hx with rfl | hx
    · exact Or.inl h.1
    · exact h.2 x hx

theorem Source.pythonName {o : GenOptions} {c : CompoundDecl} (hi : ∀ s ∈ c.symbols, IsIdentifier s)
    (hk : ∀ s ∈ c.symbols, lowerSnake s ∉ pythonKeywords) {g : PyStr × ClassEntry Part} (h : Source o c g) :
    IsPythonName g.1 := by
  have part : ∀ {f : FieldDecl}, f ∈ c.fields → ∀ x ∈ lowerSnake f.name, IdPart x :=
    fun hf => (identifier_lowerSnake (hi _ (fields_symbols hf))).parts
  have kw : ∀ {n : PyStr}, ((py! "is_").isPrefixOf n = true ∨ (py! "reset_").isPrefixOf n = true ∨
      (py! "_o").isPrefixOf n = true ∨ (py! "_Z").isPrefixOf n = true ∨ (py! "CHOICE_").isPrefixOf n = true) →
      n ∉ pythonKeywords := by
    intro n hp hn
    have := keyword_prefix n hn
    rcases hp with hp | hp | hp | hp | hp <;> simp [hp] at this
  cases h with
  | fixed h => exact fixed_names _ _ h
  | user h =>
    obtain ⟨s, hs, h1⟩ := user_name h
    rw [h1]
    exact ⟨identifier_lowerSnake (hi s hs), hk s hs⟩
  | present hf h =>
    simp only [isPresentName, toLowerSnakeCase_eq]
    exact ⟨((show IsIdentifier (py! "is_") by decide).append (part hf)).append (by decide), kw (by simp [List.isPrefixOf])⟩
  | used hf h =>
    simp only [isUsedName, toLowerSnakeCase_eq]
    exact ⟨((show IsIdentifier (py! "is_") by decide).append (part hf)).append (by decide), kw (by simp [List.isPrefixOf])⟩
  | set hf h =>
    simp only [isSetName, toLowerSnakeCase_eq]
    exact ⟨((show IsIdentifier (py! "is_") by decide).append (part hf)).append (by decide), kw (by simp [List.isPrefixOf])⟩
  | reset hf h =>
    simp only [resetterName, toLowerSnakeCase_eq]
    exact ⟨(show IsIdentifier (py! "reset_") by decide).append (part hf), kw (by simp [List.isPrefixOf])⟩
  | checker hf h =>
    simp only [offsetCheckerName, toLowerSnakeCase_eq]
    exact ⟨(show IsIdentifier (py! "_offset_checker_") by decide).append (part hf), kw (by simp [List.isPrefixOf])⟩
  | setter hf h =>
    simp only [offsetSetterName, toLowerSnakeCase_eq]
    exact ⟨(show IsIdentifier (py! "_offset_setter_") by decide).append (part hf), kw (by simp [List.isPrefixOf])⟩
  | factory hf =>
    simp only [elementFactoryName, toLowerSnakeCase_eq]
    exact ⟨(show IsIdentifier (py! "_ZserioElementFactory_") by decide).append (part hf), kw (by simp [List.isPrefixOf])⟩
  | tag hf =>
    simp only [choiceTagName_eq]
    exact ⟨(show IsIdentifier (py! "CHOICE_") by decide).append
      (identifier_upperSnake (hi _ (fields_symbols hf))).parts, kw (by simp [List.isPrefixOf])⟩

/-- the decorators after the head of a class are `@property` -/
theorem rest_builtin {o : GenOptions} {c : CompoundDecl} {g : PyStr × ClassEntry Part}
    (h : g ∈ c.params.map paramGroup ++ (c.fields.flatMap (fieldGroups o c.kind) ++
      (c.functions.map functionGroup ++ (tailGroups o c.kind ++
      (c.fields.flatMap (helperGroups o c.kind) ++ constantGroups c))))) :
    g.2.builtin = none ∨ g.2.builtin = some (py! "property") := by
  simp only [List.mem_append] at h
  rcases h with h | h | h | h | h | h
  · rw [List.mem_map] at h; obtain ⟨p, _, rfl⟩ := h; simp [paramGroup, ClassEntry.builtin]
  · rw [List.mem_flatMap] at h
    obtain ⟨f, hf, h⟩ := h
    simp only [fieldGroups, List.mem_append, mem_gcond, List.mem_cons, List.mem_singleton, List.not_mem_nil, or_false,
      Bool.and_eq_true] at h
    rcases h with ((rfl | ⟨h, rfl⟩) | ⟨h, rfl⟩) | ⟨h, rfl | rfl⟩ <;> simp [ClassEntry.builtin]
  · rw [List.mem_map] at h; obtain ⟨p, _, rfl⟩ := h; simp [functionGroup, ClassEntry.builtin]
  · simp only [tailGroups, List.mem_append, mem_gcond, List.mem_cons, List.mem_singleton, List.not_mem_nil, or_false] at h
    rcases h with (((((((((⟨_, rfl⟩ | ⟨_, rfl⟩) | rfl) | ⟨_, rfl⟩) | ⟨_, rfl⟩) | ⟨_, rfl⟩) | rfl) | ⟨_, rfl⟩) | ⟨_, rfl⟩) |
      ⟨_, rfl⟩) | ⟨_, rfl⟩ <;> simp [ClassEntry.builtin, apiGroup]
  · rw [List.mem_flatMap] at h
    obtain ⟨f, hf, h⟩ := h
    simp only [helperGroups, List.mem_append, mem_gcond, List.mem_cons, List.mem_singleton, List.not_mem_nil, or_false,
      Bool.and_eq_true] at h
    rcases h with (⟨h, rfl⟩ | ⟨h, rfl⟩) | ⟨h, rfl⟩ <;> simp [ClassEntry.builtin]
  · unfold constantGroups at h
    split at h
    · simp only [List.mem_append, List.mem_map, List.mem_singleton] at h
      rcases h with ⟨f, hf, rfl⟩ | rfl <;> simp [ClassEntry.builtin]
    · simp at h

theorem Source.not_property {o : GenOptions} {c : CompoundDecl} (hp : ∀ s ∈ c.symbols, lowerSnake s ≠ py! "property")
    {g : PyStr × ClassEntry Part} (h : Source o c g) : g.1 ≠ py! "property" := by
  cases h with
  | fixed h => exact (fixed_builtins _ _ h).1
  | user h =>
    obtain ⟨s, hs, h1⟩ := user_name h
    rw [h1]
    exact hp s hs
  | _ => simp [isPresentName, isUsedName, isSetName, resetterName, offsetCheckerName, offsetSetterName,
        elementFactoryName, choiceTagName]

theorem groups_pairwise {o : GenOptions} {c : CompoundDecl} (hp : ∀ s ∈ c.symbols, lowerSnake s ≠ py! "property") :
    (groups o c).Pairwise (fun a b => b.2.builtin ≠ some a.1) := by
  have builtins : ∀ (e : ClassEntry Part) b, e.builtin = some b →
      b = py! "property" ∨ b = py! "classmethod" ∨ b = py! "staticmethod" := by
    intro e b h
    cases e <;> simp [ClassEntry.builtin] at h <;> simp [← h]
  unfold groups
  have head : ∀ a ∈ headGroups o c, ∀ (e : ClassEntry Part), e.builtin ≠ some a.1 := by
    intro a ha e he
    have hf := fixed_builtins _ _ (head_fixed ha)
    rcases builtins e _ he with h | h | h
    · exact hf.1 h
    · exact hf.2.1 h
    · exact hf.2.2 h
  rw [List.pairwise_append]
  refine ⟨?_, ?_, fun a ha b _ => head a ha b.2⟩
  · exact List.Pairwise.imp_of_mem (fun {a b} ha _ _ => head a ha b.2) (List.pairwise_of_forall (R := fun _ _ => True) (fun _ _ => trivial))
  · refine List.Pairwise.imp_of_mem (R := fun _ _ => True) (fun {a b} ha hb _ => ?_) (List.pairwise_of_forall (fun _ _ => trivial))
    have hs : Source o c a := groups_source (by unfold groups; exact List.mem_append.2 (Or.inr ha))
    rcases rest_builtin hb with h | h <;> rw [h]
    · simp
    · intro hc
      exact hs.not_property hp (Option.some.inj hc).symm

end Zserio.Names
