import Verif.Lemmas.Imports

set_option linter.unusedSimpArgs false

namespace Zserio.Imports

open Zserio

/-- a statement which is not in the first part is in the second one -/
theorem split_after {α : Type} {a b pre post : List α} {x : α} (h : a ++ b = pre ++ x :: post) (hx : x ∉ a) :
    ∃ t, pre = a ++ t ∧ x ∈ b := by
  rcases List.append_eq_append_iff.1 h with ⟨t, rfl, hb⟩ | ⟨t, rfl, hb⟩
  · exact ⟨t, rfl, by rw [hb]; simp⟩
  · cases t with
    | nil => exact ⟨[], by simp, by rw [List.nil_append] at hb; rw [← hb]; simp⟩
    | cons y t =>
      rw [List.cons_append] at hb
      injection hb with h1 h2
      subst h1
      exact absurd (by simp) hx

/-- what the expressions of a module are -/
theorem bodyEvals_cases {d : Decl} {p : Path} {n : PyStr} (h : Stmt.eval p n ∈ bodyEvals d) :
    (p = [py! "typing"] ∧ n = py! "Tuple" ∧ p.head? = some (py! "typing") ∧ py! "typing" ∈ basePackages d) ∨
    (p = [py! "zserio"] ∧ n ∈ [py! "Enum", py! "DeprecatedItem", py! "ServiceInterface"] ∧ py! "zserio" ∈ basePackages d) ∨
    (p = [py! "zserio", py! "builtin"] ∧ ∃ e : ExprNames, n ∈ e.runtime ∧
      (d = .constant e ∨ ∃ c, d = .structure c ∧ ∃ f ∈ c.fields, f.initializer = some e)) ∨
    (p = [py! "zserio", py! "bitbuffer"] ∧ (d = .subtype .bitBuffer ∨ ∃ k cs ts, d = .sqlTable k cs ts ∧ ∃ c ∈ cs, c.type = .bitBuffer)) ∨
    ∃ b : Name, p = b.path ∧ n = b.name ∧
      ((∃ e, d = .constant e ∧ b ∈ e.names) ∨ (∃ t, d = .subtype t ∧ b ∈ t.names) ∨
       (∃ c, d = .structure c ∧ ∃ f ∈ c.fields, (∃ e, f.initializer = some e ∧ b ∈ e.names) ∨ f.type = .subtype b true) ∨
       (∃ k cs ts, d = .sqlTable k cs ts ∧ ∃ c ∈ cs, b ∈ c.type.names)) := by
  have he : ∀ {e : ExprNames} {p : Path} {n : PyStr}, Stmt.eval p n ∈ e.evals →
      (∃ b ∈ e.names, p = b.path ∧ n = b.name) ∨ (p = [py! "zserio", py! "builtin"] ∧ n ∈ e.runtime) := by
    intro e p n hs
    simp only [ExprNames.evals, List.mem_append, List.mem_map] at hs
    rcases hs with ⟨b, hb, e⟩ | ⟨f, hf, e⟩
    · cases e; exact .inl ⟨b, by simpa [ExprNames.names] using hb, rfl, rfl⟩
    · cases e; exact .inr ⟨rfl, hf⟩
  have ht : ∀ {t : NativeType} {p : Path} {n : PyStr}, Stmt.eval p n ∈ t.evals →
      (p = [py! "zserio", py! "bitbuffer"] ∧ t = .bitBuffer) ∨ ∃ b, p = b.path ∧ n = b.name ∧ b ∈ t.names := by
    intro t p n hs
    cases t <;> simp [NativeType.evals, NativeType.fullName] at hs
    · exact .inl ⟨hs.1, rfl⟩
    · exact .inr ⟨_, hs.1, hs.2, List.mem_singleton.2 rfl⟩
    · exact .inr ⟨_, hs.1, hs.2, List.mem_singleton.2 rfl⟩
  cases d with
  | constant e =>
    rcases he h with ⟨b, hb, h1, h2⟩ | ⟨h1, h2⟩
    · exact .inr (.inr (.inr (.inr ⟨b, h1, h2, .inl ⟨e, rfl, hb⟩⟩)))
    · exact .inr (.inr (.inl ⟨h1, e, h2, .inl rfl⟩))
  | subtype t =>
    rcases ht h with ⟨h1, h2⟩ | ⟨b, h1, h2, hb⟩
    · subst h2; exact .inr (.inr (.inr (.inl ⟨h1, .inl rfl⟩)))
    · exact .inr (.inr (.inr (.inr ⟨b, h1, h2, .inr (.inl ⟨t, rfl, hb⟩)⟩)))
  | enumeration t e b =>
    refine .inr (.inl ?_)
    simp only [bodyEvals, List.mem_append, List.mem_singleton] at h
    rcases h with h | h
    · cases h; exact ⟨rfl, by simp, by simp [basePackages]⟩
    · split at h
      · simp at h
        obtain ⟨rfl, rfl⟩ := h; exact ⟨rfl, by simp, by simp [basePackages]⟩
      · cases h
  | bitmask _ _ => cases h
  | «structure» c =>
    simp only [bodyEvals, List.mem_flatMap] at h
    obtain ⟨f, hf, h⟩ := h
    unfold FieldDecl.defaultEvals at h
    split at h
    · rename_i e hi
      rcases he h with ⟨b, hb, h1, h2⟩ | ⟨h1, h2⟩
      · exact .inr (.inr (.inr (.inr ⟨b, h1, h2, .inr (.inr (.inl ⟨c, rfl, f, hf, .inl ⟨e, hi, hb⟩⟩))⟩)))
      · exact .inr (.inr (.inl ⟨h1, e, h2, .inr ⟨c, rfl, f, hf, hi⟩⟩))
    · split at h
      · cases h
      · split at h
        · rename_i hb
          cases hty : f.type with
          | subtype m x =>
            rw [hty] at hb h
            simp only [NativeType.isBuiltin] at hb
            subst hb
            simp [NativeType.evals, NativeType.fullName] at h
            exact .inr (.inr (.inr (.inr ⟨m, h.1, h.2, .inr (.inr (.inl ⟨c, rfl, f, hf, .inr hty⟩))⟩)))
          | builtin => rw [hty] at h; simp [NativeType.evals, NativeType.fullName] at h
          | bitBuffer => rw [hty] at hb; simp [NativeType.isBuiltin] at hb
          | array => rw [hty] at hb; simp [NativeType.isBuiltin] at hb
          | user _ => rw [hty] at hb; simp [NativeType.isBuiltin] at hb
        · cases h
  | alternative _ => cases h
  | service _ =>
    refine .inr (.inl ?_)
    simp [bodyEvals] at h; obtain ⟨rfl, rfl⟩ := h; exact ⟨rfl, by simp, by simp [basePackages]⟩
  | pubsub _ => cases h
  | sqlTable k cs ts =>
    simp only [bodyEvals, List.mem_cons, List.mem_flatMap] at h
    rcases h with h | ⟨c, hc, h⟩
    · cases h; exact .inl ⟨rfl, rfl, rfl, by simp [basePackages]⟩
    · rcases ht h with ⟨h1, h2⟩ | ⟨b, h1, h2, hb⟩
      · exact .inr (.inr (.inr (.inl ⟨h1, .inr ⟨k, cs, ts, rfl, c, hc, h2⟩⟩)))
      · exact .inr (.inr (.inr (.inr ⟨b, h1, h2, .inr (.inr (.inr ⟨k, cs, ts, rfl, c, hc, hb⟩))⟩)))
  | sqlDatabase _ => cases h

theorem library_evals {x : Path × List Stmt} (h : x ∈ libraries) : ∀ p n, Stmt.eval p n ∉ x.2 ∧ Stmt.fromImp p n ∉ x.2 := by
  intro p n
  simp only [libraries, List.mem_cons, List.not_mem_nil, or_false] at h
  rcases h with rfl | rfl | rfl | rfl | rfl | rfl <;> simp

theorem names_structure_init {w : Bool} {c : CompoundDecl} {f : FieldDecl} {e : ExprNames} {b : Name} (hf : f ∈ c.fields)
    (hi : f.initializer = some e) (hb : b ∈ e.names) : b ∈ (Decl.structure c).names w := by
  simp only [Decl.names, CompoundDecl.names, List.mem_append, List.mem_flatMap]
  exact .inl (.inl (.inr ⟨f, hf, by simp [FieldDecl.names, hi, hb]⟩))

theorem names_structure_type {w : Bool} {c : CompoundDecl} {f : FieldDecl} {b : Name} {x : Bool} (hf : f ∈ c.fields)
    (hi : f.type = .subtype b x) : b ∈ (Decl.structure c).names w := by
  simp only [Decl.names, CompoundDecl.names, List.mem_append, List.mem_flatMap]
  exact .inl (.inl (.inr ⟨f, hf, by simp [FieldDecl.names, hi, NativeType.names]⟩))

theorem names_table {w : Bool} {k : Option ExprNames} {cs : List ColumnDecl} {ts : List NativeType} {c : ColumnDecl} {b : Name}
    (hc : c ∈ cs) (hb : b ∈ c.type.names) : b ∈ (Decl.sqlTable k cs ts).names w := by
  simp only [Decl.names, List.mem_append, List.mem_flatMap]
  exact .inl (.inr ⟨c, hc, .inl (.inl hb)⟩)

/-- every module of an accepted schema finds what it evaluates -/
theorem program_sound {w : Bool} {s : Schema} (hf : FrontEnd w s) (hx : ∀ a, (a, Decl.subtype .bitBuffer) ∉ s.decls)
    (hc : ∀ a t b, (a, Decl.subtype t) ∈ s.decls → b ∈ t.names → ¬ Relation.ReflTransGen (s.Refers w) b a) :
    Sound (program w s) ((modules w s).map (·.1)) where
  finite m body h := List.mem_map.2 ⟨_, (program_iff hf).1 h, rfl⟩
  closed m body h p hp := by
    have lib : ∀ p, libraryPath p → ∃ b, program w s p = some b := by
      intro p hp
      obtain ⟨x, hx, rfl⟩ := List.mem_map.1 hp
      exact ⟨_, program_library hf hx⟩
    rcases program_cases hf h with h | ⟨a, d, hd, rfl, rfl⟩ | ⟨a, ha, rfl, rfl⟩
    · exact lib p (library_imports h p hp)
    · rcases importsOf_body hp with h | ⟨n, hn, rfl⟩
      · exact lib p h
      · obtain ⟨e, he⟩ := hf.resolved a d hd n hn
        exact ⟨_, program_decl hf he⟩
    · rw [apiBody, mem_importsOf_append] at hp
      rcases hp with hp | hp
      · simp only [importsOf, List.filterMap_map, List.mem_filterMap, Function.comp_def, Option.some.injEq] at hp
        obtain ⟨q, hq, rfl⟩ := hp
        obtain ⟨b, hb, rfl⟩ := (hf.apis a ha).1 q hq
        exact ⟨_, program_api hf hb⟩
      · simp only [importsOf, List.filterMap_map, List.mem_filterMap, Function.comp_def, Option.some.injEq] at hp
        obtain ⟨q, hq, rfl⟩ := hp
        obtain ⟨d, hd⟩ := (hf.apis a ha).2 q hq
        exact ⟨_, program_decl hf hd⟩
  evals m pre p n post h := by
    rcases program_cases hf h with h | ⟨a, d, hd, rfl, hb⟩ | ⟨a, ha, rfl, hb⟩
    · exact absurd (by simp) (library_evals h p n).1
    · rw [moduleBody_eq] at hb
      obtain ⟨t, rfl, hm⟩ := split_after hb.symm bodyHead_noEval
      have sub : ∀ q, q ∈ impsOf (bodyHead w d) → q ∈ impsOf (bodyHead w d ++ t) := fun q hq => mem_impsOf_append.2 (.inl hq)
      have hlib : ∀ q, libraryPath q → ¬ Reaches (program w s) q a.path :=
        fun q hq hr => path_not_library hf hd (reaches_library hf hr hq)
      have hm : Stmt.eval p n ∈ bodyEvals d := by
        rcases List.mem_append.1 hm with hm | hm
        · exact hm
        · simp at hm
      have user : ∀ b : Name, b ∈ d.names w → ¬ Reaches (program w s) b.path a.path → p = b.path → n = b.name →
          ∃ q ∈ impsOf (bodyHead w d ++ t), (∃ a, p.head? = some a ∧ q.head? = some a) ∧ ¬ Reaches (program w s) q a.path ∧
            (p = q ∨ (∃ bq, program w s q = some bq ∧ p ∈ importsOf bq ∧ ¬ Reaches (program w s) p a.path)) ∧
            ∃ bp, program w s p = some bp ∧ n ∈ definesOf bp := by
        intro b hb hr h1 h2
        obtain ⟨e, he⟩ := hf.resolved a d hd b hb
        have hh : ∃ x, b.path.head? = some x := by
          cases hp : b.package with
          | nil => exact ⟨b.module, by simp [Name.path, hp]⟩
          | cons x r => exact ⟨x, by simp [Name.path, hp]⟩
        obtain ⟨x, hx⟩ := hh
        exact ⟨b.path, sub _ (names_imported hb), ⟨x, by rw [h1, hx], hx⟩, hr, .inl h1, _,
          by rw [h1]; exact program_decl hf he, by rw [h2]; exact definesOf_body⟩
      have zs : libraryPath [py! "zserio"] := package_library (by simp [pyPackages])
      rcases bodyEvals_cases hm with ⟨rfl, rfl, _, hk⟩ | ⟨rfl, hn, hk⟩ | ⟨rfl, e, hn, hd'⟩ | ⟨rfl, hd'⟩ | ⟨b, h1, h2, hd'⟩
      · refine ⟨[py! "typing"], sub _ (base_imported hk), ⟨_, rfl, rfl⟩, hlib _ (package_library (by simp [pyPackages])), .inl rfl, ?_⟩
        exact ⟨_, program_library hf (x := ([py! "typing"], [.define (py! "Tuple")])) (by simp [libraries]), by simp [definesOf]⟩
      · refine ⟨[py! "zserio"], sub _ (base_imported hk), ⟨_, rfl, rfl⟩, hlib _ zs, .inl rfl, ?_⟩
        refine ⟨_, program_library hf (x := ([py! "zserio"], [.imp [py! "zserio", py! "bitbuffer"], .imp [py! "zserio", py! "builtin"],
          .define (py! "Enum"), .define (py! "DeprecatedItem"), .define (py! "ServiceInterface")])) (by simp [libraries]), ?_⟩
        simpa [definesOf] using hn
      · have himp : [py! "zserio"] ∈ impsOf (bodyHead w d) := by
          rcases hd' with rfl | ⟨c, rfl, _⟩
          · apply mem_bodyHead_imps
            rw [mem_stmts]
            exact .inl ⟨_, format_zserio (by intro h; rw [h] at hn; cases hn), rfl⟩
          · exact base_imported (by simp [basePackages])
        have hl := program_library hf (x := ([py! "zserio"], [.imp [py! "zserio", py! "bitbuffer"], .imp [py! "zserio", py! "builtin"],
          .define (py! "Enum"), .define (py! "DeprecatedItem"), .define (py! "ServiceInterface")])) (by simp [libraries])
        refine ⟨[py! "zserio"], sub _ himp, ⟨_, rfl, rfl⟩, hlib _ zs, .inr ⟨_, hl, by simp [importsOf],
          hlib _ (by simp [libraryPath, libraries])⟩, ?_⟩
        refine ⟨_, program_library hf (x := ([py! "zserio", py! "builtin"],
          [.define (py! "lengthof_string"), .define (py! "numbits"), .define (py! "isset")])) (by simp [libraries]), ?_⟩
        have := hf.runtime a d hd e hd' n hn
        simpa [definesOf] using this
      · rcases hd' with rfl | ⟨k, cs, ts, rfl, c, hc', ht⟩
        · exact absurd hd (hx a)
        · exact absurd ht (hf.columns a k cs ts hd c hc')
      · rcases hd' with ⟨e, rfl, hb'⟩ | ⟨ty, rfl, hb'⟩ | ⟨c, rfl, f, hff, hb'⟩ | ⟨k, cs, ts, rfl, c, hcc, hb'⟩
        · exact user b hb' (value_not_reaches hf hd (.constant hd) hb') h1 h2
        · refine user b hb' ?_ h1 h2
          obtain ⟨e, he⟩ := hf.resolved a _ hd b hb'
          rw [reaches_refers hf he hd]
          exact hc a ty b hd hb'
        · rcases hb' with ⟨e, hi, hb'⟩ | hty
          · exact user b (names_structure_init hff hi hb')
              (structure_not_reaches hf hd (hf.initializers a c hd f hff e hi b hb')) h1 h2
          · exact user b (names_structure_type hff hty)
              (structure_not_reaches hf hd (hf.builtins a c hd f hff b hty)) h1 h2
        · exact user b (names_table hcc hb') (table_not_reaches hf hd (names_table hcc hb')) h1 h2
    · have : Stmt.eval p n ∈ apiBody a := by rw [← hb]; simp
      simp [apiBody] at this
  froms m pre p n post h := by
    rcases program_cases hf h with h | ⟨a, d, hd, rfl, hb⟩ | ⟨a, ha, rfl, hb⟩
    · exact absurd (by simp) (library_evals h p n).2
    · have hm : Stmt.fromImp p n ∈ bodyHead w d := by
        have hm : Stmt.fromImp p n ∈ moduleBody w a.name d := by rw [← hb]; simp
        rw [moduleBody_eq] at hm
        rcases List.mem_append.1 hm with hm | hm
        · exact hm
        · rcases List.mem_append.1 hm with hm | hm
          · obtain ⟨_, _, e⟩ := evals_only _ hm; cases e
          · simp at hm
      have key : Stmt.fromImp p n ∉ (collect w d).stmts := fun hs => by obtain ⟨_, e⟩ := noEval_stmts _ _ hs; cases e
      have en : p = [py! "enum"] ∧ (n = py! "Enum" ∨ n = py! "IntEnum") := by
        cases d <;> simp only [bodyHead, List.mem_append] at hm <;> try exact absurd hm key
        · rcases hm with (hm | hm) | hm
          · simp at hm
            rcases hm with ⟨h1, h2⟩ | ⟨h1, h2⟩
            · exact ⟨h1, .inl h2⟩
            · exact ⟨h1, .inr h2⟩
          · exact absurd hm key
          · split at hm <;> simp at hm
        · rcases hm with hm | hm
          · exact absurd hm key
          · split at hm <;> simp at hm
      obtain ⟨rfl, hn⟩ := en
      refine ⟨fun hr => path_not_library hf hd (reaches_library hf hr (by simp [libraryPath, libraries])), ?_⟩
      exact ⟨_, program_library hf (x := ([py! "enum"], [.define (py! "Enum"), .define (py! "IntEnum")])) (by simp [libraries]),
        by simpa [definesOf] using hn⟩
    · have hm : Stmt.fromImp p n ∈ apiBody a := by rw [← hb]; simp
      simp only [apiBody, List.mem_append, List.mem_map] at hm
      rcases hm with ⟨_, _, e⟩ | ⟨b, hb', e⟩
      · cases e
      · cases e
        obtain ⟨d, hd⟩ := (hf.apis a ha).2 b hb'
        refine ⟨fun hr => ?_, _, program_decl hf hd, definesOf_body⟩
        rcases reaches_decls hf (Q := fun _ => True) (fun _ _ _ _ _ _ => trivial) hd trivial hr with h | ⟨c, e, hc', _, h⟩
        · exact api_not_library hf ha h
        · exact api_ne_path hf ha hc' h

end Zserio.Imports
