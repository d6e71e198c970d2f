import Verif.Lemmas.CreatorStep
import Verif.Lemmas.Rebuild
import Verif.Lemmas.ValEq
/-
C42 (and the last part of C40): the tree creator accepts exactly the well-nested calls which match the schema, and the events of a
walk rebuild the walked object.
-/
set_option linter.unusedSimpArgs false
namespace Zserio
open Creator

/-! ### Type infos for the examples -/

namespace CreatorDemo

/-- the value of the first field -/
def firstField : Expr Int := fun (env : Env) =>
  match env.fields with
  | .int x :: _ => .ok x
  | _ => .error .type

/-- struct Root { uint8 n; Part(n) part; Any anys[]; extend optional string note; }; -/
def rootFields : List MemberInfo := [
  { schemaName := py! "n", type := .builtin .int, prop := 0 },
  { schemaName := py! "part", type := .compound 1, prop := 1, args := [firstField] },
  { schemaName := py! "anys", type := .compound 2, prop := 2, isArray := true },
  { schemaName := py! "note", type := .builtin .str, prop := 3, optional := true, extIndex := some 0 }]

/-- choice Part(uint8 k) on k { case 5: uint8 five; default: ; }; -/
def partFields : List MemberInfo := [{ schemaName := py! "five", type := .builtin .int, prop := 0 }]

/-- union Any { uint8 number; string text; }; -/
def anyFields : List MemberInfo := [
  { schemaName := py! "number", type := .builtin .int, prop := 0 },
  { schemaName := py! "text", type := .builtin .str, prop := 1 }]

/-- the choice tag of `Part` -/
def partTag (ps : List Int) : Except Err Int := .ok (if ps = [5] then 0 else UNDEFINED_CHOICE)

/-- the types -/
def infos : TypeInfos
  | 0 => { kind := .struct, fields := rootFields, defaults := [.int 0, .none, .arr [], .none], numExtended := 1 }
  | 1 => { kind := .choice partTag, fields := partFields, numParams := 1 }
  | _ => { kind := .union, fields := anyFields }

theorem firstField_blind (env env' : Env) (h : env.eraseExt = env'.eraseExt) : firstField env = firstField env' := by
  have hf : env.fields.map Val.eraseExt = env'.fields.map Val.eraseExt := by
    have := congrArg Env.fields h
    simpa [Env.eraseExt] using this
  unfold firstField
  cases h1 : env.fields with
  | nil => cases h2 : env'.fields <;> simp_all
  | cons x xs =>
    cases h2 : env'.fields with
    | nil => simp_all
    | cons y ys =>
      rw [h1, h2, List.map_cons, List.map_cons] at hf
      have := (List.cons.inj hf).1
      cases x <;> cases y <;> simp_all [Val.eraseExt]

theorem regular : infos.Regular where
  numbered := by
    intro id k m hm
    match id with
    | 0 => match k with
      | 0 | 1 | 2 | 3 => simp [infos, rootFields] at hm; subst hm; rfl
      | _ + 4 => simp [infos, rootFields] at hm
    | 1 => match k with
      | 0 => simp [infos, partFields] at hm; subst hm; rfl
      | _ + 1 => simp [infos, partFields] at hm
    | _ + 2 => match k with
      | 0 | 1 => simp [infos, anyFields] at hm; subst hm; rfl
      | _ + 2 => simp [infos, anyFields] at hm
  names := by
    intro id
    match id with
    | 0 => decide
    | 1 => decide
    | _ + 2 => show (anyFields.map MemberInfo.schemaName).Nodup; decide
  defaults := by
    intro id h
    match id with
    | 0 => rfl
    | 1 => simp [infos] at h
    | _ + 2 => simp [infos] at h
  extended := by
    intro id m i hm hi
    match id with
    | 0 =>
      simp only [infos, rootFields, List.mem_cons, List.not_mem_nil, or_false] at hm
      rcases hm with rfl | rfl | rfl | rfl <;> simp [CompoundInfo.initialExtended, infos, rootFields] at hi ⊢
      omega
    | 1 => simp [infos, partFields] at hm; subst hm; simp at hi
    | _ + 2 => simp [infos, anyFields] at hm; rcases hm with rfl | rfl <;> simp at hi
  args := by
    intro id m hm e he env env' henv
    match id with
    | 0 =>
      simp only [infos, rootFields, List.mem_cons, List.not_mem_nil, or_false] at hm
      rcases hm with rfl | rfl | rfl | rfl <;> simp at he
      subst he
      exact firstField_blind env env' henv
    | 1 => simp [infos, partFields] at hm; subst hm; simp at he
    | _ + 2 => simp [infos, anyFields] at hm; rcases hm with rfl | rfl <;> simp at he

/-- an object of the type `Root` -/
def root : Val :=
  .obj [] 4 0 [.int 5, .obj [5] 0 0 [.int 9], .arr [.obj [] 0 1 [.str (py! "abc")], .obj [] 0 0 [.int 7]], .str (py! "x")]

theorem fits : Fits infos True (.object 0 []) root := by
  refine .struct rfl rfl rfl (fun _ => rfl) ?_
  intro i m v hm hv
  match i with
  | 0 =>
    simp [infos, rootFields] at hm hv
    subst hm hv
    exact .single rfl (.simple (by simp) rfl)
  | 1 =>
    simp [infos, rootFields] at hm hv
    subst hm hv
    refine .single rfl (.compound (ps := [5]) rfl rfl (.choice (i := 0) (m := { schemaName := py! "five", type := .builtin .int, prop := 0 }) rfl rfl rfl rfl ?_))
    exact .single rfl (.simple (by simp) rfl)
  | 2 =>
    simp [infos, rootFields] at hm hv
    subst hm hv
    refine .array rfl ?_
    intro i x hx
    match i with
    | 0 =>
      simp at hx
      subst hx
      refine .compound (ps := []) rfl rfl (.union (i := 1) (m := { schemaName := py! "text", type := .builtin .str, prop := 1 }) rfl rfl rfl ?_)
      exact .single rfl (.simple (by simp) rfl)
    | 1 =>
      simp at hx
      subst hx
      refine .compound (ps := []) rfl rfl (.union (i := 0) (m := { schemaName := py! "number", type := .builtin .int, prop := 0 }) rfl rfl rfl ?_)
      exact .single rfl (.simple (by simp) rfl)
    | _ + 2 => simp at hx
  | 3 =>
    simp [infos, rootFields] at hm hv
    subst hm hv
    exact .single rfl (.simple (by simp) rfl)
  | _ + 4 => simp [infos, rootFields] at hm

/-- calls which build it -/
def calls : List Call := [.beginRoot, .setValue (py! "n") (.int 5), .beginCompound (py! "part"), .setValue (py! "five") (.int 9),
  .endCompound, .beginArray (py! "anys"), .beginCompoundElement, .setValue (py! "text") (.str (py! "abc")), .endCompoundElement,
  .beginCompoundElement, .setValue (py! "number") (.int 7), .endCompoundElement, .endArray, .setValue (py! "note") (.str (py! "x")),
  .endRoot]

end CreatorDemo

/-! ### Which calls are accepted -/

/-- **C42**: calls on a new tree creator all succeed and end outside of any root if and only if they are well nested and match the
schema, and then they return the objects built. -/
theorem C42_accepts (I : TypeInfos) (id : Nat) (args : List Int) (calls : List Call) (os : List Val) :
    (∃ rs s, run I calls (new id args) = (.ok rs, s) ∧ s.state = .beforeRoot ∧ objects rs = os) ↔ Sessions I id args calls os := by
  constructor
  · rintro ⟨rs, s, hr, hs, rfl⟩
    rcases run_reached (.fresh .nil) hr with ⟨rs', h1, h2⟩ | ⟨e, _, _, h1, _⟩
    · cases h1
      cases h2 with
      | fresh h => simpa using h
      | @inside _ _ f h => cases f <;> simp [frameState] at hs
    · cases h1
  · intro h
    obtain ⟨rs, hr, ho⟩ := sessions_run h
    exact ⟨rs, _, hr, rfl, ho⟩

/-- **C42**: the same for calls which may end inside of a root: all of them succeed if and only if they can be continued to a
well-nested sequence which matches the schema. -/
theorem C42_prefix (I : TypeInfos) (id : Nat) (args : List Int) (calls : List Call) :
    (∃ rs s, run I calls (new id args) = (.ok rs, s)) ↔ ∃ rest os, Sessions I id args (calls ++ rest) os := by
  constructor
  · rintro ⟨rs, s, hr⟩
    rcases run_reached (.fresh .nil) hr with ⟨rs', h1, h2⟩ | ⟨e, _, _, h1, _⟩
    · cases h1
      cases h2 with
      | fresh h => exact ⟨[], _, by simpa using h⟩
      | inside h =>
        obtain ⟨rest, o, h⟩ := h.close
        exact ⟨rest, _, by simpa using h⟩
    · cases h1
  · rintro ⟨rest, os, h⟩
    obtain ⟨rs, hr, _⟩ := sessions_run h
    obtain ⟨rs₁, _, s, h1, _⟩ := run_append_inv hr
    exact ⟨rs₁, s, h1⟩

/-- **C42**: whatever has been called before (with or without exceptions), a call which raises changes nothing: not the tree under
construction and not what the creator expects next. -/
theorem C42_unchanged (I : TypeInfos) (id : Nat) (args : List Int) (calls : List (List Call)) (c : Call) {e : Err} {s s' : Creator}
    (hs : s = calls.foldl (fun s cs => (run I cs s).2) (new id args)) (h : call I c s = (.error e, s')) : s' = s := by
  have hreach : ∀ (l : List (List Call)) (s : Creator), (∃ cs os, Reached I id args cs os s) →
      ∃ cs os, Reached I id args cs os (l.foldl (fun s cs => (run I cs s).2) s) := by
    intro l
    induction l with
    | nil => exact fun s h => h
    | cons cs l ih =>
      rintro s ⟨cs₀, os, hr⟩
      refine ih _ ?_
      rcases hrun : run I cs s with ⟨r, s₁⟩
      rcases run_reached hr hrun with ⟨rs, _, h2⟩ | ⟨_, c', o', _, h2⟩
      · exact ⟨_, _, by simpa only [hrun] using h2⟩
      · exact ⟨_, _, by simpa only [hrun] using h2⟩
  obtain ⟨cs, os, hr⟩ := hreach calls _ ⟨[], [], .fresh .nil⟩
  rw [← hs] at hr
  have := call_outcome hr c
  rw [h] at this
  cases this
  rfl

/-- the calls of the example are accepted and return the object -/
example : Sessions CreatorDemo.infos 0 [] CreatorDemo.calls [CreatorDemo.root] :=
  (C42_accepts _ _ _ _ _).mp ⟨_, _, rfl, rfl, rfl⟩

/-- a call which raises, in the middle of a tree after an earlier exception: an unknown field, a value of a wrong type -/
example : call CreatorDemo.infos (.setValue (py! "unknown") (.int 1))
    (run CreatorDemo.infos [.beginRoot, .setValue (py! "n") (.int 5), .setValue (py! "n") (.str [])] (new 0 [])).2 =
    (.error .creator, (run CreatorDemo.infos [.beginRoot, .setValue (py! "n") (.int 5)] (new 0 [])).2) := rfl

example : ¬ ∃ rest os, Sessions CreatorDemo.infos 0 [] ([.beginRoot, .beginArray (py! "n")] ++ rest) os := by
  rw [← C42_prefix]
  rintro ⟨rs, s, h⟩
  have : (run CreatorDemo.infos [.beginRoot, .beginArray (py! "n")] (new 0 [])).1 = .error .creator := rfl
  rw [h] at this
  cases this

/-! ### Rebuilding -/

/-- **C42**: the events of a walk of an object of the type `id` with the parameters `ps`, fed to a tree creator for this type and
these parameters, return an object which has the same values everywhere; it is identical to the walked object if all extended
fields of the walked object are present (in the new object they are always present). -/
theorem C42_rebuild {I : TypeInfos} (hI : I.Regular) {complete : Prop} {id : Nat} {ps : List Int} {o : Val}
    (h : Fits I complete (.object id ps) o) :
    ∃ es rs o', Walker.walk I defaultFilter (some (.compound id)) o () = (.ok (), (), es) ∧
      run I (es.map Event.call) (new id ps) = (.ok rs, new id ps) ∧ objects rs = [o'] ∧ o'.eraseExt = o.eraseExt ∧
      (complete → o' = o) := by
  obtain ⟨⟨k, tag, fs, rfl⟩, o₀, hn, es, o', hw, hb, hs⟩ := Rebuild.fits_works hI h
  obtain ⟨rs, hr, ho⟩ := sessions_run (.root hn hb.builds .nil)
  refine ⟨.beginRoot (.obj ps k tag fs) :: es ++ [.endRoot (.obj ps k tag fs)], rs, o', ?_, ?_, ho, hs.1, hs.2⟩
  · simp only [Walker.walk, Walker.root]
    rw [Walk.bind_ok (a := ()) (s' := ()) (es := [.beginRoot (.obj ps k tag fs)]) rfl, Walk.bind_ok hw]
    rfl
  · simpa [Event.call] using hr

example : ∃ es rs, Walker.walk CreatorDemo.infos defaultFilter (some (.compound 0)) CreatorDemo.root () = (.ok (), (), es) ∧
    run CreatorDemo.infos (es.map Event.call) (new 0 []) = (.ok rs, new 0 []) ∧ objects rs = [CreatorDemo.root] := by
  obtain ⟨es, rs, o', h1, h2, h3, _, h5⟩ := C42_rebuild CreatorDemo.regular CreatorDemo.fits
  exact ⟨es, rs, h1, h2, by rw [h3, h5 trivial]⟩

/-- **C40**: the walk determines the object: if the walks of two objects of the same type and with the same parameters visit the
same names and the same simple values in the same nesting, the objects have the same values everywhere. -/
theorem C40_determines {I : TypeInfos} (hI : I.Regular) {complete : Prop} {id : Nat} {ps : List Int} {o₁ o₂ : Val}
    (h₁ : Fits I complete (.object id ps) o₁) (h₂ : Fits I complete (.object id ps) o₂) {es₁ es₂ : List Event}
    (hw₁ : Walker.walk I defaultFilter (some (.compound id)) o₁ () = (.ok (), (), es₁))
    (hw₂ : Walker.walk I defaultFilter (some (.compound id)) o₂ () = (.ok (), (), es₂))
    (he : es₁.map Event.call = es₂.map Event.call) : o₁.eraseExt = o₂.eraseExt ∧ (complete → o₁ = o₂) := by
  obtain ⟨es, rs, o, h1, h2, h3, h4, h5⟩ := C42_rebuild hI h₁
  obtain ⟨es', rs', o', h1', h2', h3', h4', h5'⟩ := C42_rebuild hI h₂
  rw [hw₁] at h1
  rw [hw₂] at h1'
  cases h1
  cases h1'
  rw [he, h2'] at h2
  cases h2
  rw [h3'] at h3
  cases h3
  exact ⟨by rw [← h4, ← h4'], fun hc => by rw [← h5 hc, ← h5' hc]⟩

/-- the hypotheses are met by an object, and an object with another value sends other events -/
example : Fits CreatorDemo.infos True (.object 0 []) CreatorDemo.root ∧
    ∃ es, Walker.walk CreatorDemo.infos defaultFilter (some (.compound 0)) CreatorDemo.root () = (.ok (), (), es) ∧
      es.map Event.call = CreatorDemo.calls := ⟨CreatorDemo.fits, _, rfl, rfl⟩

/-- An object whose extended field is not present: the walk visits the field all the same, and in the rebuilt object it is
present. -/
theorem C42_extended_present :
    let o := Val.obj [] 0 0 [.int 6, .none, .arr [], .none]
    Fits CreatorDemo.infos False (.object 0 []) o ∧
    ∃ es rs, Walker.walk CreatorDemo.infos defaultFilter (some (.compound 0)) o () = (.ok (), (), es) ∧
      run CreatorDemo.infos (es.map Event.call) (new 0 []) = (.ok rs, new 0 []) ∧
      objects rs = [.obj [] 4 0 [.int 6, .none, .arr [], .none]] := by
  refine ⟨.struct rfl rfl rfl (fun h => h.elim) ?_, _, _, rfl, rfl, rfl⟩
  intro i m v hm hv
  match i with
  | 0 =>
    simp [CreatorDemo.infos, CreatorDemo.rootFields] at hm hv
    subst hm hv
    exact .single rfl (.simple (by simp) rfl)
  | 1 =>
    simp [CreatorDemo.infos, CreatorDemo.rootFields] at hm hv
    subst hm hv
    exact .single rfl .none
  | 2 =>
    simp [CreatorDemo.infos, CreatorDemo.rootFields] at hm hv
    subst hm hv
    exact .array rfl (by simp)
  | 3 =>
    simp [CreatorDemo.infos, CreatorDemo.rootFields] at hm hv
    subst hm hv
    exact .single rfl .none
  | _ + 4 => simp [CreatorDemo.infos, CreatorDemo.rootFields] at hm

end Zserio
