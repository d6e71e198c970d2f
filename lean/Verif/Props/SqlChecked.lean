import Verif.Props.SqlTable
import Verif.Props.Bitmask
/-
C60, continued: whatever another program has stored in a table, the enumerations and bitmasks which are read are ones of their types.
-/
namespace Zserio.Sql

variable {E : Engine} {provider : Provider}

/-- The value is one which the column can have: `None`, an item of the enumeration, a value within the bits of the bitmask. -/
def Allowed : ColumnKind → Val → Prop
  | .enum e, v => v = .none ∨ ∃ item ∈ e.items, v = .int item.value
  | .bitmask d, v => v = .none ∨ ∃ x, v = .int x ∧ ∀ w, d.width = some w → 0 ≤ x ∧ x < 2 ^ w
  | _, _ => True

theorem readValue_allowed {raw earlier : List Val} {kind : ColumnKind} {v w : Val}
    (h : kind.readValue provider raw earlier v = .ok w) : Allowed kind w := by
  unfold ColumnKind.readValue at h
  split at h
  · trivial
  · trivial
  · rename_i e
    split at h
    · cases h; exact .inl rfl
    · rename_i x
      unfold EnumClass.call at h
      split at h
      · rename_i m hm
        cases h
        exact .inr ⟨e.items[m], List.getElem_mem _, rfl⟩
      · cases h
    · cases h
  · rename_i d
    split at h
    · cases h; exact .inl rfl
    · rename_i x
      refine .inr ?_
      cases hb : Bitmask.fromValue (d := d) x with
      | error e => rw [hb] at h; cases h
      | ok b =>
        rw [hb] at h
        cases h
        refine ⟨b.value, rfl, fun w hw => ?_⟩
        rw [Bitmask.fromValue_eq hw] at hb
        split at hb
        · rename_i hx
          cases hb
          exact hx
        · cases hb
    · cases h

theorem readRowLoop_allowed {raw : List Val} {cs : List Column} :
    ∀ {ms : List Bool} {i : Nat} {vs out : List Val}, TableDef.readRowLoop provider raw cs ms i vs = .ok out →
      ∃ new, out = vs ++ new ∧ List.Forall₂ (fun c v => Allowed c.kind v) cs new := by
  induction cs with
  | nil =>
    intro ms i vs out h
    cases h
    exact ⟨[], by simp, .nil⟩
  | cons c cs ih =>
    intro ms i vs out h
    cases ms with
    | nil => cases h
    | cons m ms =>
      unfold TableDef.readRowLoop at h
      split at h
      · split at h
        · cases h
        · rename_i v _
          cases hw : c.kind.readValue provider raw vs v with
          | error e => rw [hw] at h; cases h
          | ok w =>
            rw [hw, ok_bind] at h
            obtain ⟨new, rfl, hnew⟩ := ih h
            exact ⟨w :: new, by simp, .cons (readValue_allowed hw) hnew⟩
      · obtain ⟨new, rfl, hnew⟩ := ih h
        refine ⟨.none :: new, by simp, .cons ?_ hnew⟩
        cases c.kind with
        | plain => trivial
        | blob k args => trivial
        | enum e => exact .inl rfl
        | bitmask d => exact .inl rfl

/-- **C60.** Whatever is stored in a table with an enumeration, bitmask or compound column: if `read` or `read_columns` returns, then
each row has one value for each column, each value of an enumeration column is `None` or an item, each value of a bitmask column is
`None` or within the bits of the bitmask. -/
theorem C60_checked {T : SqlTable} {columns : Option (List PyStr)} {condition : Option PyStr} {c : Connection} {rows : List (List Val)}
    (hconv : ∃ col ∈ T.type.columns, col.kind ≠ .plain)
    (h : (T.read E provider columns condition c).1 = .ok rows) :
    ∀ row ∈ rows, List.Forall₂ (fun col v => Allowed col.kind v) T.type.columns row := by
  have hneeds : T.type.needsRowConversion = true := by
    obtain ⟨col, hm, hne⟩ := hconv
    refine List.any_eq_true.2 ⟨col, hm, ?_⟩
    cases hkind : col.kind with
    | plain => exact absurd hkind hne
    | _ => rfl
  intro row hrow
  unfold SqlTable.read at h
  rw [M.bind_apply, M.lift_apply] at h
  cases hm : T.type.columnMap columns with
  | error e => rw [hm] at h; cases h
  | ok cm =>
    rw [hm] at h
    simp only at h
    rw [M.bind_apply] at h
    split at h
    · rename_i raw c' _
      rw [M.lift_apply] at h
      have hall := mapM_ok_iff.1 h
      obtain ⟨i, hi, rfl⟩ := List.getElem_of_mem hrow
      have := (List.forall₂_iff_get.1 hall).2 i (hall.length_eq ▸ hi) hi
      unfold TableDef.readRow at this
      rw [if_pos hneeds] at this
      obtain ⟨new, hnew, hf⟩ := readRowLoop_allowed this
      simp only [List.get_eq_getElem, List.nil_append] at hnew
      rw [hnew]
      exact hf
    · cases h

open SqlDemo in
/-- The rows of the example are read, and a row with a number which is no item of the enumeration makes reading raise. -/
example : (∀ row ∈ [row2, row1], List.Forall₂ (fun col v => Allowed col.kind v) goods.type.columns row) :=
  C60_checked (E := engine) (provider := limit) (columns := none) (condition := none) (c := written)
    ⟨goods.type.columns[2], List.getElem_mem _, fun h => by cases h⟩ (by decide +kernel)

end Zserio.Sql
