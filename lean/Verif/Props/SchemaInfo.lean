import Verif.Lemmas.SchemaInfo
import Verif.Props.JsonReader
import Verif.Props.JsonTyped
import Verif.Props.Rewrite
import Verif.Spec.SchemaInfoDemo
/-
C87: the type infos of generated classes describe the objects which are read, and what was read survives the way through JSON.

`defs` is any schema, `L` its names and classes; `defs.infos L` are the type infos of its classes.
-/
set_option linter.unusedSimpArgs false
namespace Zserio
open Json SchemaInfo

/-- **C87**: the type infos of a schema are regular: the fields are numbered in the order of the schema, have different names, and a
structure has a default value for every field. -/
theorem C87_regular (defs : Schema) (L : Labels) (hL : L.Rules defs) : (defs.infos L).Regular := regular hL

/-- what `from_reader` returns -/
theorem SchemaInfo.fromReader_obj {defs : Schema} {L : Labels} (hL : L.Rules defs) {n id : Nat} {ps : List Int}
    (hps : ps.length = L.numParams id) {r r' : Reader} (hr : r.WF) {x : Val}
    (h : (defs.codec n id).fromReader ps r = (.ok x, r')) : Obj defs L id ps x := by
  obtain ⟨⟨y, c'⟩, r1, h1, h2⟩ := M.bind_inv (show ((defs.codec n id).read none Ctx.empty ps >>= fun q => pure q.1) r = _ from h)
  simp only [M.pure_apply, Prod.mk.injEq, Except.ok.injEq] at h2
  obtain ⟨rfl, -⟩ := h2
  exact (schema_reads hL n).gives id none Ctx.empty ps (fun _ => rfl) hps r _ r1 hr h1

theorem SchemaInfo.deserialize_obj {defs : Schema} {L : Labels} (hL : L.Rules defs) {n id : Nat} {ps : List Int}
    (hps : ps.length = L.numParams id) {b : BitBuffer} (hb : 0 ≤ b.bitsize) {x : Val}
    (h : deserialize (defs.codec n id) b ps = .ok x) : Obj defs L id ps x := by
  obtain ⟨r, h1, h2⟩ := except_bind_ok h
  have hr : r.WF := by
    unfold Reader.fromBitBuffer Reader.make at h1
    simp only at h1
    split at h1
    · cases h1
    · simp only [Except.ok.injEq] at h1
      subst h1
      refine ⟨?_, ?_⟩ <;> simp only <;> omega
  exact fromReader_obj hL hps hr (show (defs.codec n id).fromReader ps r = (.ok x, _) from Prod.ext h2 rfl)

/-- **C87**: whatever object a reader returns, from any position of any bytes, the type info of its class describes it: it has the
parameters and the fields the type info tells, and every field, every element of an array and every field of an object within it has
a value of the type which the type info tells. -/
theorem C87_reader (defs : Schema) (L : Labels) (hL : L.Rules defs) (n id : Nat) (ps : List Int) (hps : ps.length = L.numParams id)
    (r r' : Reader) (hr : r.WF) (x : Val) (h : (defs.codec n id).fromReader ps r = (.ok x, r')) :
    Fits (defs.infos L) defs.Whole (.object id ps) x := (fromReader_obj hL hps hr h).1

/-- **C87**, for `deserialize` -/
theorem C87_deserialize (defs : Schema) (L : Labels) (hL : L.Rules defs) (n id : Nat) (ps : List Int) (hps : ps.length = L.numParams id)
    (b : BitBuffer) (hb : 0 ≤ b.bitsize) (x : Val) (h : deserialize (defs.codec n id) b ps = .ok x) :
    Fits (defs.infos L) defs.Whole (.object id ps) x := (deserialize_obj hL hps hb h).1

/-- **C87**: a bitmask which was read is within its bounds if the schema has no packed arrays. -/
theorem C87_tame (defs : Schema) (L : Labels) (hL : L.Rules defs) (hp : defs.NoPacked) (n id : Nat) (ps : List Int)
    (hps : ps.length = L.numParams id) (b : BitBuffer) (hb : 0 ≤ b.bitsize) (x : Val) (h : deserialize (defs.codec n id) b ps = .ok x)
    (hx : NoNaN (defs.infos L) id x) : Tame (defs.infos L) id x := by
  refine ⟨hx, fun p m d y hn ht => ?_⟩
  rcases (deserialize_obj hL hps hb h).2 p m _ hn (by simp [ht]) (by simp) with h | ⟨z, hz, _⟩ | ⟨_, _, _, _, hs⟩
  · rw [ht] at h; exact h
  · cases hz
  · exact absurd hp hs

/-- the values of an object which was read -/
theorem SchemaInfo.proper {defs : Schema} {L : Labels} {id : Nat} {ps : List Int} {x : Val} (h : Obj defs L id ps x)
    (hx : Tame (defs.infos L) id x) :
    ∀ p m y, HasNode (defs.infos L) (.root id x) p (.item m y) → (∀ cid, m.type ≠ .compound cid) → y ≠ .none → Proper m.type y := by
  intro p m y hn hc hy
  rcases h.2 p m y hn hc hy with h | ⟨z, rfl, ht⟩ | ⟨d, z, ht, rfl, _⟩
  · exact h
  · rw [ht]
    have := hx.1 p m z hn
    simp only [Proper, canonical]
    rw [if_neg (by omega)]
  · rw [ht]; exact hx.2 p m d z hn ht

/-- **C87**: whatever `deserialize` returns, from any bytes, can be converted to JSON, and the text is converted back to an object with
the same values, unless there is a NaN or a bitmask out of bounds.  The object is identical if the schema has neither extended
fields nor empty cases of choices. -/
theorem C87_json_partial (defs : Schema) (L : Labels) (hL : L.Rules defs) (n id : Nat) (ps : List Int) (hps : ps.length = L.numParams id)
    (b : BitBuffer) (hb : 0 ≤ b.bitsize) (x : Val) (h : deserialize (defs.codec n id) b ps = .ok x) (hx : Tame (defs.infos L) id x)
    (t : PyText) (ht : t.Lawful) (indent : Indent) (hind : ∀ s, indent = .str s → Blank s) :
    ∃ text, toJsonString t (defs.infos L) defaultFilter () indent id x = .ok text ∧ ∀ chunks, Chunks text chunks →
      ∃ x', fromJsonStream t (defs.infos L) id ps chunks = .ok x' ∧ x'.eraseExt = x.eraseExt ∧ (defs.Whole → x' = x) :=
  C52_json_string t ht indent hind (regular hL) (names hL) (deserialize_obj hL hps hb h).1 (proper (deserialize_obj hL hps hb h) hx)

/-- **C87**: bytes → object → JSON text → object → bytes → object ends with the object it began with, for schemas without extended
fields, empty cases of choices, offsets and packed arrays. -/
theorem C87_bytes_partial (defs : Schema) (L : Labels) (hL : L.Rules defs) (hw : defs.Whole) (closed : Nat → Bool)
    (hl : defs.Layout closed) (hd : defs.Direct) (n id : Nat) (ps : List Int) (hps : ps.length = L.numParams id)
    (b : BitBuffer) (hb : 0 ≤ b.bitsize) (x : Val) (h : deserialize (defs.codec n id) b ps = .ok x) (hr : defs.Rewritable n id x)
    (hx : NoNaN (defs.infos L) id x) (t : PyText) (ht : t.Lawful) (indent : Indent) (hind : ∀ s, indent = .str s → Blank s) :
    ∃ text b', toJsonString t (defs.infos L) defaultFilter () indent id x = .ok text ∧ ∀ chunks, Chunks text chunks →
      ∃ x', fromJsonStream t (defs.infos L) id ps chunks = .ok x' ∧ serialize (defs.codec n id) x' = .ok (b', x') ∧
        deserialize (defs.codec n id) b' ps = .ok x := by
  have hp : defs.NoPacked := by
    intro cid
    have : ∀ f, (defs cid).HasField f → ∀ a, f.array = some a → f.packable = true → a.isPacked = false := fun f hf a ha hpk => by
      simpa [hpk] using (hd cid f hf).2 a ha
    cases hc : defs cid with
    | struct fs => rw [hc] at this; exact this
    | union fs => rw [hc] at this; exact this
    | choice s cs d => rw [hc] at this; exact ⟨fun k hk f hf => this f (.inl ⟨k, hk, hf⟩), fun f hf => this f (.inr hf)⟩
  obtain ⟨text, h1, h2⟩ := C87_json_partial defs L hL n id ps hps b hb x h (C87_tame defs L hL hp n id ps hps b hb x h hx) t ht indent hind
  obtain ⟨b', h3, h4⟩ := C74_rewrite_partial defs closed hl hd n id b hb ps x h hr
  refine ⟨text, b', h1, fun chunks hc => ?_⟩
  obtain ⟨x', h5, _, h7⟩ := h2 chunks hc
  cases h7 hw
  exact ⟨x, h5, h3, h4⟩

/-- an event of the walk of a tame object -/
def Json.TameEvent : Event → Prop
  | .visitValue (.float x) _ _ | .beginCompound (.float x) _ _ => x.toNat % 2 ^ 63 ≤ 2047 * 2 ^ 52
  | .visitValue (.int x) m _ | .beginCompound (.int x) m _ =>
    match m.type with
    | .bitmask d => 0 ≤ x ∧ d.lowerBound ≤ x ∧ x ≤ d.upperBound
    | _ => True
  | _ => True

instance Json.TameEvent.decidable (e : Event) : Decidable (Json.TameEvent e) := by
  unfold Json.TameEvent
  split <;> first | infer_instance | (split <;> infer_instance)

/-- the nodes of an object, from the events of its walk -/
theorem Json.tame_of_walk {I : TypeInfos} (hI : I.Numbered) {id : Nat} {o : Val} {es : List Event}
    (hw : Walker.walk I defaultFilter (some (.compound id)) o () = (.ok (), (), es)) (h : ∀ e ∈ es, TameEvent e) : Tame I id o := by
  have key : ∀ p m x, HasNode I (.root id o) p (.item m x) → ∃ idx, TameEvent (.visitValue x m idx) ∨ TameEvent (.beginCompound x m idx) := by
    intro p m x hn
    obtain ⟨es', L, h1, ⟨es'', he, hnest, _⟩, _, hL⟩ := C40_walk hI ((C40_walk_iff (I := I) hI (id := id) (o := o)).mp ⟨_, hw⟩)
    rw [hw] at h1
    cases h1
    have hp : p ≠ [] := by
      rintro rfl
      cases hn
    obtain ⟨idx, hm | hm⟩ := nested_item hnest p m x ((hL _ _).mpr ⟨hp, hn⟩)
    · exact ⟨idx, .inl (h _ (by rw [he]; simp [hm]))⟩
    · exact ⟨idx, .inr (h _ (by rw [he]; simp [hm]))⟩
  constructor
  · intro p m x hn
    obtain ⟨idx, h | h⟩ := key p m _ hn <;> exact h
  · intro p m d x hn ht
    obtain ⟨idx, h | h⟩ := key p m _ hn <;> simpa only [TameEvent, ht] using h

/-- C87: the properties of a structure.  Setting the `k`-th property stores the value in the `k`-th field and in no other one
(`None` is stored as an empty array in a required array), and all extended fields become present exactly if the field is an
extended one which was not present. -/
theorem C87_setter (defs : Schema) (L : Labels) (id k : Nat) (fs : List FieldDef) (hd : defs id = .struct fs) (f : FieldDef)
    (hf : fs[k]? = some f) (ps : List Int) (numExt : Nat) (tag : Int) (vs : List Val) (v : Val) :
    ∃ m, (defs.infos L id).fields[k]? = some m ∧
      (defs.infos L id).setAttr (.obj ps numExt tag vs) m v =
        .ok (.obj ps (if f.extended = true ∧ Struct.isPresent numExt (Struct.base fs) k = false then numExtended fs else numExt) tag
          (vs.set k (if v = .none ∧ f.array.isSome = true ∧ f.optional matches .required then .arr [] else v))) := by
  refine ⟨f.info L id k ((defs id).extIndex k f), ?_, ?_⟩
  · simp [Schema.infos, CompoundDef.info, CompoundDef.members, hd, CompoundDef.fieldDefs, hf]
  · have hs : (f.info L id k ((defs id).extIndex k f)).stored v
        = if v = .none ∧ f.array.isSome = true ∧ f.optional matches .required then .arr [] else v := by
      cases v <;> simp [MemberInfo.stored, FieldDef.info]
      cases f.optional <;> simp
    simp only [CompoundInfo.setAttr, Schema.infos, CompoundDef.info, hd]
    rw [hd] at hs
    rw [hs]
    have hx : CompoundInfo.setExtended ((defs id).info L id) numExt (f.info L id k ((defs id).extIndex k f))
        = if f.extended = true ∧ Struct.isPresent numExt (Struct.base fs) k = false then numExtended fs else numExt := by
      simp only [CompoundInfo.setExtended, FieldDef.info, CompoundDef.extIndex, CompoundDef.info, hd, Struct.isPresent]
      cases f.extended <;> simp
      split <;> split <;> first | rfl | omega
    simp only [CompoundDef.info, hd] at hx
    rw [hx]
    rfl

/-- `Longer` read from old data has no `b`; setting `b` makes it present, and setting `a` does not -/
example : Struct.isPresent 0 1 1 = false ∧
    (InfoDemo.others.infos InfoDemo.otherLabels 3).fields[1]?.map
      (fun m => (InfoDemo.others.infos InfoDemo.otherLabels 3).setAttr (.obj [] 0 0 [.int 7, .str []]) m (.str (py! "x")))
      = some (.ok (.obj [] 1 0 [.int 7, .str (py! "x")])) ∧
    (InfoDemo.others.infos InfoDemo.otherLabels 3).fields[0]?.map
      (fun m => (InfoDemo.others.infos InfoDemo.otherLabels 3).setAttr (.obj [] 0 0 [.int 7, .str []]) m (.int 8))
      = some (.ok (.obj [] 0 0 [.int 8, .str []])) := ⟨rfl, rfl, rfl⟩

/-- C87: a new object of a structure has the default values of the schema in its fields (an empty array in a required array
without one), and all its extended fields are present. -/
theorem C87_new (defs : Schema) (L : Labels) (id : Nat) (fs : List FieldDef) (hd : defs id = .struct fs) (ps : List Int)
    (hp : ps.length = L.numParams id) :
    ∃ (numExt : Nat) (vs : List Val), (defs.infos L id).new ps = .ok (.obj ps numExt 0 vs) ∧ vs.length = fs.length ∧
      (∀ (k : Nat) (f : FieldDef), fs[k]? = some f →
        vs[k]? = some (if f.default = .none ∧ f.array.isSome = true ∧ f.optional matches .required then .arr [] else f.default)) ∧
      (∀ (k : Nat) (f : FieldDef), fs[k]? = some f → f.extended = true → Struct.isPresent numExt (Struct.base fs) k = true) := by
  refine ⟨_, _, by simp [CompoundInfo.new, Schema.infos, CompoundDef.info, hd, hp]; exact ⟨rfl, rfl⟩, by simp, ?_, ?_⟩
  · intro k f hf
    rw [List.getElem?_mapIdx, hf, Option.map_some]
    congr 1
    cases h : f.default <;> simp [MemberInfo.stored, FieldDef.info]
    cases f.optional <;> simp
  · intro k f hf he
    have hk := (List.getElem?_eq_some_iff.1 hf).1
    have : 0 < numExtended fs := by
      unfold numExtended
      exact List.length_pos_iff.2 fun h0 => by
        have := List.mem_filter.2 ⟨List.mem_of_getElem? hf, he⟩
        rw [h0] at this
        cases this
    simp only [CompoundInfo.initialExtended, this, if_true, CompoundDef.members, CompoundDef.fieldDefs, List.length_mapIdx,
      Struct.isPresent, decide_eq_true_eq]
    omega

/-- a new `Longer` -/
example : ((InfoDemo.others 3).info InfoDemo.otherLabels 3).new [] = .ok (.obj [] 2 0 [.none, .str []]) := rfl

namespace InfoDemo

/-- the object of the examples -/
def main : Val := .obj [] 0 0 [.int 3, .int 1, .int 2, .float 0x3FF0000000000000, .obj [3] 0 0 [.str (py! "A")], .arr [.int 1, .int 1], .int 5]

theorem labels_rules : labels.Rules schema where
  distinct := by
    intro id i j hi hj h
    match id with
    | 0 =>
      have : ∀ i < 7, ∀ j < 7, (names 0).getD i [] = (names 0).getD j [] → i = j := by decide
      exact this i hi j hj h
    | id + 1 =>
      have : ∀ i < 2, ∀ j < 2, (names 1).getD i [] = (names 1).getD j [] → i = j := by decide
      exact this i hi j hj h
  identifiers := by
    intro id i hi
    match id with
    | 0 =>
      have : ∀ i < 7, Identifier ((names 0).getD i []) := by decide
      exact this i hi
    | id + 1 =>
      have : ∀ i < 2, Identifier ((names 1).getD i []) := by decide
      exact this i hi
  enums := by
    intro id k f e hf he
    have hc : Names (color.items.map EnumItem.name) := ⟨by decide, by decide⟩
    refine ⟨?_, hc⟩
    match id, k with
    | 0, 0 | 0, 1 | 0, 2 | 0, 3 | 0, 4 | 0, 5 | 0, 6 => cases hf; cases he <;> rfl
    | 0, k + 7 => simp [schema, CompoundDef.fieldDefs] at hf
    | id + 1, 0 | id + 1, 1 => cases hf; cases he
    | id + 1, k + 2 => simp [schema, CompoundDef.fieldDefs] at hf
  masks := by
    intro id k f e hf he
    have hc : Names (rights.values.map Prod.fst) := ⟨by decide, by decide⟩
    refine ⟨?_, rfl, hc⟩
    match id, k with
    | 0, 0 | 0, 1 | 0, 2 | 0, 3 | 0, 4 | 0, 5 | 0, 6 => cases hf; cases he <;> rfl
    | 0, k + 7 => simp [schema, CompoundDef.fieldDefs] at hf
    | id + 1, 0 | id + 1, 1 => cases hf; cases he
    | id + 1, k + 2 => simp [schema, CompoundDef.fieldDefs] at hf
  arity := by
    intro id f cid args hf ht
    match id with
    | 0 =>
      simp only [schema, CompoundDef.HasField, List.mem_cons, List.not_mem_nil, or_false] at hf
      rcases hf with rfl | rfl | rfl | rfl | rfl | rfl | rfl <;> cases ht
      rfl
    | id + 1 =>
      simp only [schema, CompoundDef.HasField, List.mem_cons, List.not_mem_nil, or_false, exists_eq_left, Option.some.injEq] at hf
      rcases hf with rfl | rfl <;> cases ht
  blind := by
    intro id f hf e he env env' h
    have hk : kind env = kind env' := by
      have : env.eraseExt.fields = env'.eraseExt.fields := by rw [h]
      have hi := congrArg (fun (l : List Val) => l[0]?) this
      simp only [Env.eraseExt, List.getElem?_map] at hi
      unfold kind
      cases h1 : env.fields[0]? <;> cases h2 : env'.fields[0]? <;> simp [h1, h2] at hi ⊢
      rename_i a b
      cases a <;> cases b <;> simp_all [Val.eraseExt, Val.asInt]
    match id with
    | 0 =>
      simp only [schema, CompoundDef.HasField, List.mem_cons, List.not_mem_nil, or_false] at hf
      rcases hf with rfl | rfl | rfl | rfl | rfl | rfl | rfl <;> simp [ElemType.args] at he <;> subst he <;> exact hk
    | id + 1 =>
      simp only [schema, CompoundDef.HasField, List.mem_cons, List.not_mem_nil, or_false, exists_eq_left, Option.some.injEq] at hf
      rcases hf with rfl | rfl <;> simp [ElemType.args] at he
  default := by
    intro id k f hf he
    match id, k with
    | 0, 0 | 0, 1 | 0, 2 | 0, 3 | 0, 4 | 0, 5 | 0, 6 => cases hf; cases he
    | 0, k + 7 => simp [schema, CompoundDef.fieldDefs] at hf
    | id + 1, 0 | id + 1, 1 => cases hf; cases he
    | id + 1, k + 2 => simp [schema, CompoundDef.fieldDefs] at hf

theorem schema_whole : schema.Whole where
  extended := by
    intro id f hf
    match id with
    | 0 =>
      simp only [schema, CompoundDef.HasField, List.mem_cons, List.not_mem_nil, or_false] at hf
      rcases hf with rfl | rfl | rfl | rfl | rfl | rfl | rfl <;> rfl
    | id + 1 =>
      simp only [schema, CompoundDef.HasField, List.mem_cons, List.not_mem_nil, or_false, exists_eq_left, Option.some.injEq] at hf
      rcases hf with rfl | rfl <;> rfl
  cases := by
    intro id s cs d h
    match id with
    | 0 => cases h
    | id + 1 =>
      cases h
      simp

theorem schema_direct : schema.Direct := by
  intro id f hf
  match id with
  | 0 =>
    simp only [schema, CompoundDef.HasField, List.mem_cons, List.not_mem_nil, or_false] at hf
    rcases hf with rfl | rfl | rfl | rfl | rfl | rfl | rfl <;> simp [FieldDef.Direct]
  | id + 1 =>
    simp only [schema, CompoundDef.HasField, List.mem_cons, List.not_mem_nil, or_false, exists_eq_left, Option.some.injEq] at hf
    rcases hf with rfl | rfl <;> simp [FieldDef.Direct]

theorem schema_layout : schema.Layout fun _ => true := by
  intro id
  match id with
  | 0 =>
    simp only [schema, CompoundDef.Layout, List.dropLast]
    refine ⟨?_, ?_, ?_, ?_⟩
    · simp [FieldDef.ArrayOk]
    · simp [FieldDef.Closed]
    · simp [FieldDef.Closed]
    · intro i f hf
      match i with
      | 0 | 1 | 2 | 3 | 4 | 5 | 6 => cases hf; simp [Struct.base, numExtended]
      | i + 7 => simp at hf
  | id + 1 => simp [schema, CompoundDef.Layout, FieldDef.ArrayOk, FieldDef.Closed]

theorem main_tame : Tame (schema.infos labels) 0 main :=
  tame_of_walk (regular labels_rules).numbered
    (es := (Walker.walk (schema.infos labels) defaultFilter (some (.compound 0)) main ()).2.2) rfl (by decide +kernel)

theorem main_rewritable : schema.Rewritable 3 0 main := by
  simp only [Schema.Rewritable, CompoundDef.Rewritable, schema, main, Struct.Rewritable, FieldDef.Rewritable, FieldDef.RewritableValue,
    ElemType.Rewritable]
  refine ⟨by simp, by simp, by simp, by simp, by simp, by simp, by simp, by simp, ?_, by simp, by simp, by simp, by simp, by simp, trivial⟩
  intro _ _ f slot h
  have : Choice.select param [⟨[1], some { type := .int (.bitField 8), packable := true }⟩] (some (some { type := .other .string })) [3] =
      .ok (some { type := .other .string }, 2) := rfl
  rw [this] at h
  cases h
  simp

/-- A structure with an enumeration item, a bitmask, a number, a choice which is instantiated with an argument, an array and a
dynamic bit field: it is read from 13 bytes and meets the hypotheses of the theorems above. -/
example : labels.Rules schema ∧ schema.Whole ∧ schema.Direct ∧ schema.Layout (fun _ => true) ∧
    deserialize (schema.codec 3 0) ⟨[3, 1, 2, 63, 128, 0, 0, 128, 160, 129, 0, 128, 208], 100⟩ [] = .ok main ∧
    labels.numParams 0 = 0 ∧ Tame (schema.infos labels) 0 main ∧ NoNaN (schema.infos labels) 0 main ∧ schema.Rewritable 3 0 main ∧
    PyText.simple.Lawful :=
  ⟨labels_rules, schema_whole, schema_direct, schema_layout, by decide +kernel, rfl, main_tame, main_tame.1, main_rewritable,
    simple_lawful⟩

/-- the text -/
example : toJsonString PyText.simple (schema.infos labels) defaultFilter () .none 0 main = .ok (
    py! "{\"kind\": 3, \"color\": \"RED\", \"rights\": \"WRITE\", \"ratio\": 4607182418800017408e0, " ++
    py! "\"shape\": {\"label\": \"A\"}, \"colors\": [\"RED\", \"RED\"], \"bits\": 5}") := by decide +kernel

theorem otherLabels_rules : otherLabels.Rules others where
  distinct := by
    intro id i j hi hj h
    match id with
    | 0 | 1 | 2 => simp [others, CompoundDef.fieldDefs] at hi hj; omega
    | id + 3 =>
      have : ∀ i < 2, ∀ j < 2, (otherNames 3).getD i [] = (otherNames 3).getD j [] → i = j := by decide
      exact this i hi j hj h
  identifiers := by
    intro id i hi
    match id with
    | 0 =>
      have : ∀ i < 1, Identifier ((otherNames 0).getD i []) := by decide
      exact this i hi
    | 1 =>
      have : ∀ i < 1, Identifier ((otherNames 1).getD i []) := by decide
      exact this i hi
    | 2 =>
      have : ∀ i < 1, Identifier ((otherNames 2).getD i []) := by decide
      exact this i hi
    | id + 3 =>
      have : ∀ i < 2, Identifier ((otherNames 3).getD i []) := by decide
      exact this i hi
  enums := by
    intro id k f e hf he
    match id, k with
    | 0, 0 | 1, 0 | 2, 0 | id + 3, 0 | id + 3, 1 => cases hf; cases he
    | 0, k + 1 | 1, k + 1 | 2, k + 1 | id + 3, k + 2 => simp [others, CompoundDef.fieldDefs] at hf
  masks := by
    intro id k f e hf he
    have hc : Names (rights.values.map Prod.fst) := ⟨by decide, by decide⟩
    refine ⟨?_, rfl, hc⟩
    match id, k with
    | 0, 0 | 1, 0 | 2, 0 | id + 3, 0 | id + 3, 1 => cases hf; cases he <;> rfl
    | 0, k + 1 | 1, k + 1 | 2, k + 1 | id + 3, k + 2 => simp [others, CompoundDef.fieldDefs] at hf
  arity := by
    intro id f cid args hf ht
    match id with
    | 0 => simp [others, CompoundDef.HasField] at hf; subst hf; cases ht
    | 1 | 2 => simp [others, CompoundDef.HasField] at hf; subst hf; cases ht
    | id + 3 => simp [others, CompoundDef.HasField] at hf; rcases hf with rfl | rfl <;> cases ht
  blind := by
    intro id f hf e he
    match id with
    | 0 => simp [others, CompoundDef.HasField] at hf; subst hf; cases he
    | 1 | 2 => simp [others, CompoundDef.HasField] at hf; subst hf; cases he
    | id + 3 => simp [others, CompoundDef.HasField] at hf; rcases hf with rfl | rfl <;> cases he
  default := by
    intro id k f hf he
    match id, k with
    | 0, 0 | 1, 0 | 2, 0 | id + 3, 0 => cases hf; cases he
    | id + 3, 1 => cases hf; exact .inr ⟨by simp [ElemType.info], trivial⟩
    | 0, k + 1 | 1, k + 1 | 2, k + 1 | id + 3, k + 2 => simp [others, CompoundDef.fieldDefs] at hf

end InfoDemo

open InfoDemo in
/-- **C87 fails for bitmasks in packed arrays.**  Nothing checks what `packed Rights masks[3]` reads (255, 256, 256: bigger than
any `uint8`), the text has the numbers, but `Rights(256)` cannot be made from it. -/
theorem C87_packed_deviates : otherLabels.Rules others ∧
    deserialize (others.codec 1 1) ⟨[0x8F, 0xFE, 0x02, 0x00], 31⟩ [] = .ok (.obj [] 0 0 [.arr [.int 255, .int 256, .int 256]]) ∧
    ∃ text, toJsonString PyText.simple (others.infos otherLabels) defaultFilter () .none 1 (.obj [] 0 0 [.arr [.int 255, .int 256, .int 256]]) =
        .ok text ∧
      fromJsonStream PyText.simple (others.infos otherLabels) 1 [] [text] = .error .bitmaskBounds :=
  ⟨otherLabels_rules, by decide +kernel, py! "{\"masks\": [\"255 /* partial match: READ | WRITE */\", \"256 /* no match */\", " ++
    py! "\"256 /* no match */\"]}", by decide +kernel, by decide +kernel⟩

open InfoDemo in
/-- **C87: NaNs differ.**  Any NaN is written as `NaN`, which is read as the NaN with the smallest payload. -/
theorem C87_nan_deviates : otherLabels.Rules others ∧
    deserialize (others.codec 1 2) ⟨[0x7F, 0xF0, 0, 0, 0, 0, 0, 1], 64⟩ [] = .ok (.obj [] 0 0 [.float 0x7FF0000000000001]) ∧
    ∃ text, toJsonString PyText.simple (others.infos otherLabels) defaultFilter () .none 2 (.obj [] 0 0 [.float 0x7FF0000000000001]) =
        .ok text ∧
      fromJsonStream PyText.simple (others.infos otherLabels) 2 [] [text] = .ok (.obj [] 0 0 [.float 0x7FF8000000000000]) :=
  ⟨otherLabels_rules, by decide +kernel, py! "{\"x\": NaN}", by decide +kernel, by decide +kernel⟩

open InfoDemo in
/-- **C87: empty cases of choices.**  The object which is read has no `_choice`, that from JSON has the value `None`.  (The
difference shows: comparing objects of this class which were read raises, `C51_empty_case`.) -/
theorem C87_empty_case_deviates : otherLabels.Rules others ∧
    deserialize (others.codec 1 0) ⟨[], 0⟩ [2] = .ok (.obj [2] 0 0 [.unset]) ∧
    ∃ text, toJsonString PyText.simple (others.infos otherLabels) defaultFilter () .none 0 (.obj [2] 0 0 [.unset]) = .ok text ∧
      fromJsonStream PyText.simple (others.infos otherLabels) 0 [2] [text] = .ok (.obj [2] 0 0 [.none]) :=
  ⟨otherLabels_rules, by decide +kernel, py! "{}", by decide +kernel, by decide +kernel⟩

open InfoDemo in
/-- **C87: extended fields.**  The object which is read from bytes without the field `b` has no such field; the text has its default
value, and the object from JSON has the field: it is longer when it is written. -/
theorem C87_extended_deviates : otherLabels.Rules others ∧
    deserialize (others.codec 1 3) ⟨[5], 8⟩ [] = .ok (.obj [] 0 0 [.int 5, .str []]) ∧
    (∃ text, toJsonString PyText.simple (others.infos otherLabels) defaultFilter () .none 3 (.obj [] 0 0 [.int 5, .str []]) = .ok text ∧
      fromJsonStream PyText.simple (others.infos otherLabels) 3 [] [text] = .ok (.obj [] 2 0 [.int 5, .str []])) ∧
    serialize (others.codec 1 3) (.obj [] 0 0 [.int 5, .str []]) = .ok (⟨[5], 8⟩, .obj [] 0 0 [.int 5, .str []]) ∧
    serialize (others.codec 1 3) (.obj [] 2 0 [.int 5, .str []]) = .ok (⟨[5, 0], 16⟩, .obj [] 2 0 [.int 5, .str []]) :=
  ⟨otherLabels_rules, by decide +kernel, ⟨py! "{\"a\": 5, \"b\": \"\"}", by decide +kernel, by decide +kernel⟩, by decide +kernel,
    by decide +kernel⟩

end Zserio
