import Verif.Lemmas.CompoundSafe
import Verif.Lemmas.Compound
import Verif.Lemmas.ValEq
import Verif.Spec.CompoundDemo
set_option linter.unusedSimpArgs false
/-
C35, C49: generated compounds on arbitrary input and in arbitrary states.
-/
namespace Zserio
open Writer

/-! ### C49 -/

/-- **C49.** Reading an object of any schema from any input, at any position: whether it returns or raises, the reader is still
inside its stream, and the stream is unchanged.  (That there is a result at all is the totality of the model.) -/
theorem C49_reader_stays_inside (defs : Schema) (n id : Nat) (ps : List Int) (r : Reader)
    (h1 : r.bitsize ≤ 8 * r.buffer.length) (h2 : (r.pos : Int) ≤ r.bitsize) :
    ∃ r', ((∃ x, (defs.codec n id).fromReader ps r = (.ok x, r')) ∨ (∃ e, (defs.codec n id).fromReader ps r = (.error e, r'))) ∧
      r'.buffer = r.buffer ∧ r'.bitsize = r.bitsize ∧ (r'.pos : Int) ≤ r'.bitsize := by
  have hs : Reader.Safe ((defs.codec n id).fromReader ps) :=
    ((defs.safeRead n id) none Ctx.empty ps).bind (fun _ => Reader.safe_pure _)
  obtain ⟨h3, h4, h5⟩ := hs r ⟨by omega, h2⟩
  refine ⟨((defs.codec n id).fromReader ps r).2, ?_, h4, h5, h3.2⟩
  rcases hx : (defs.codec n id).fromReader ps r with ⟨e | x, r'⟩
  · exact .inr ⟨e, rfl⟩
  · exact .inl ⟨x, rfl⟩

/-- Random bytes read as an object with packed arrays: an offset check fails in the middle of the stream. -/
example : (((Demo.schema.codec 3 3).fromReader [1] ⟨[1, 2, 3, 4, 5, 6, 7, 8, 9, 10, 11, 12, 13, 14, 15], 117, 0⟩).2.pos) ≤ 117 ∧
    ((Demo.schema.codec 3 3).fromReader [1] ⟨[1, 2, 3, 4, 5, 6, 7, 8, 9, 10, 11, 12, 13, 14, 15], 117, 0⟩).1 ≠
      ((Demo.schema.codec 3 3).fromReader [1] ⟨[], 0, 0⟩).1 := by
  decide +kernel

/-! ### C35 -/

/-- **C35.** Reading a union whose tag is not the number of one of its fields raises. -/
theorem C35_unknown_tag (defs : Schema) (n id : Nat) (fs : List FieldDef) (hd : defs id = .union fs) (ps : List Int)
    (r r1 : Reader) (tag : Int) (htag : Reader.readVar .varsize r = (.ok tag, r1)) (hout : (fs.length : Int) ≤ tag) :
    (defs.codec (n + 1) id).fromReader ps r = (.error .noMatch, r1) := by
  have hsel : Union.select fs tag = .error .noMatch := by
    unfold Union.select
    rw [if_neg (by omega), List.getElem?_eq_none (by omega)]
  simp only [Codec.fromReader, Schema.codec, hd, CompoundDef.codec, Union.codec, Union.tagMode, intRead, IntKind.traits]
  apply M.bind_error
  have h1 : (Traits.var .varsize).read 0 r = (.ok tag, r1) := htag
  rw [M.bind_ok (s' := r1) (a := (tag, Ctx.empty)) (by rw [M.bind_ok h1]; rfl)]
  rw [hsel, M.bind_error (M.lift_apply _ _)]

/-- **C35.** A union that is read has a tag of one of its fields. -/
theorem C35_read_tag (defs : Schema) (n id : Nat) (fs : List FieldDef) (hd : defs id = .union fs) (ps : List Int)
    (r r' : Reader) (x : Val) (h : (defs.codec (n + 1) id).fromReader ps r = (.ok x, r')) :
    ∃ tag v, x = .obj ps 0 tag [v] ∧ 0 ≤ tag ∧ tag < fs.length := by
  simp only [Codec.fromReader, Schema.codec, hd, CompoundDef.codec, Union.codec] at h
  obtain ⟨⟨x0, c0⟩, r1, h1, h⟩ := M.bind_inv h
  obtain ⟨⟨tag, c⟩, r2, h2, h3⟩ := M.bind_inv h1
  obtain ⟨f, r3, h4, h5⟩ := M.bind_inv h3
  obtain ⟨⟨v, c'⟩, r4, h6, h7⟩ := M.bind_inv h5
  simp only [M.pure_apply, Prod.mk.injEq, Except.ok.injEq] at h h7
  simp only [M.lift_apply, Prod.mk.injEq] at h4
  obtain ⟨h4, -⟩ := h4
  refine ⟨tag, v, ?_, ?_⟩
  · rw [← h.1, ← h7.1.1]
  · unfold Union.select at h4
    split at h4
    · cases h4
    · split at h4
      · next g hg =>
        have := (List.getElem?_eq_some_iff.mp hg).1
        omega
      · cases h4

/-- Neither a member nor the undefined tag (`UNDEFINED_CHOICE` is -1). -/
def Union.NotAMember (fs : List FieldDef) (tag : Int) : Prop := tag < 0 ∨ (fs.length : Int) ≤ tag

/-- **C35.** Sizing, initialising and writing a union without a selected field raises, in the packed variants too. -/
theorem C35_union_not_selected (defs : Schema) (n id : Nat) (fs : List FieldDef) (hd : defs id = .union fs) (ps : List Int)
    (k : Nat) (tag : Int) (vs : List Val) (ht : Union.NotAMember fs tag) :
    (∀ mode c p, ∃ e, (defs.codec (n + 1) id).bitsizeof mode c p (.obj ps k tag vs) = .error e) ∧
    (∀ mode c p, ∃ e, (defs.codec (n + 1) id).initOffsets mode c p (.obj ps k tag vs) = .error e) ∧
    (∀ path c, ∃ e, (defs.codec (n + 1) id).initPacking path c (.obj ps k tag vs) = .error e) ∧
    (∀ mode c w, ∃ e w', (defs.codec (n + 1) id).write mode c (.obj ps k tag vs) w = (.error e, w')) := by
  have hsel : Union.select fs tag = .error .noMatch := by
    unfold Union.select
    split
    · rfl
    · rw [List.getElem?_eq_none (by rcases ht with h | h <;> omega)]
  simp only [Schema.codec, hd, CompoundDef.codec, Union.codec]
  match vs with
  | [] | _ :: _ :: _ =>
    exact ⟨fun _ _ _ => ⟨_, rfl⟩, fun _ _ _ => ⟨_, rfl⟩, fun _ _ => ⟨_, rfl⟩, fun _ _ w => ⟨.type, w, rfl⟩⟩
  | [v] =>
    refine ⟨fun mode c p => ?_, fun mode c p => ?_, fun path c => ?_, fun mode c w => ?_⟩
    · exact raises_bind _ (fun a _ => ⟨.noMatch, by rw [hsel]; rfl⟩)
    · exact raises_bind _ (fun a _ => ⟨.noMatch, by rw [hsel]; rfl⟩)
    · exact raises_bind _ (fun a _ => ⟨.noMatch, by rw [hsel]; rfl⟩)
    · exact M.raises_bind _ w (fun a w1 _ => ⟨.noMatch, w1, by rw [hsel, M.bind_error (M.lift_apply _ _)]⟩)

/-- The value of the selector has no case and the choice has no default. -/
def Choice.NoMatch (cases : List CaseDef) (default : Option (Option FieldDef)) (s : Int) : Prop :=
  default = none ∧ ∀ k ∈ cases, s ∉ k.values

theorem Choice.select_noMatch {selector : Expr Int} {cases : List CaseDef} {default : Option (Option FieldDef)} {ps : List Int}
    {s : Int} (hs : selector ⟨ps, [], 0⟩ = .ok s) (h : Choice.NoMatch cases default s) :
    Choice.select selector cases default ps = .error .noMatch := by
  obtain ⟨rfl, h⟩ := h
  have : ∀ n, Choice.selectCase cases none n s = .error .noMatch := by
    induction cases with
    | nil => intro n; rfl
    | cons k ks ih =>
      intro n
      rw [Choice.selectCase, if_neg (h k (by simp))]
      exact ih (fun k' hk => h k' (by simp [hk])) (n + 1)
  unfold Choice.select
  rw [hs, ok_bind, this]

/-- **C35.** A choice whose selector matches nothing cannot be read, sized, initialised or written; a read leaves the reader
where it was. -/
theorem C35_choice_no_match (defs : Schema) (n id : Nat) (selector : Expr Int) (cases : List CaseDef)
    (default : Option (Option FieldDef)) (hd : defs id = .choice selector cases default) (ps : List Int) (s : Int)
    (hs : selector ⟨ps, [], 0⟩ = .ok s) (hm : Choice.NoMatch cases default s) (k : Nat) (tag : Int) (vs : List Val) :
    (∀ r, (defs.codec (n + 1) id).fromReader ps r = (.error .noMatch, r)) ∧
    (∀ mode c p, ∃ e, (defs.codec (n + 1) id).bitsizeof mode c p (.obj ps k tag vs) = .error e) ∧
    (∀ mode c p, ∃ e, (defs.codec (n + 1) id).initOffsets mode c p (.obj ps k tag vs) = .error e) ∧
    (∀ path c, ∃ e, (defs.codec (n + 1) id).initPacking path c (.obj ps k tag vs) = .error e) ∧
    (∀ mode c w, ∃ e, (defs.codec (n + 1) id).write mode c (.obj ps k tag vs) w = (.error e, w)) := by
  have hsel := Choice.select_noMatch hs hm
  simp only [Codec.fromReader, Schema.codec, hd, CompoundDef.codec, Choice.codec]
  refine ⟨fun r => ?_, ?_⟩
  · rw [hsel, M.bind_error (s' := r) (e := .noMatch) (M.bind_error (M.lift_apply _ _))]
  match vs with
  | [] | _ :: _ :: _ =>
    exact ⟨fun _ _ _ => ⟨_, rfl⟩, fun _ _ _ => ⟨_, rfl⟩, fun _ _ => ⟨_, rfl⟩, fun _ _ w => ⟨.type, rfl⟩⟩
  | [v] =>
    refine ⟨fun mode c p => ?_, fun mode c p => ?_, fun path c => ?_, fun mode c w => ?_⟩
    · exact ⟨.noMatch, by dsimp only; rw [hsel]; rfl⟩
    · exact ⟨.noMatch, by dsimp only; rw [hsel]; rfl⟩
    · exact ⟨.noMatch, by dsimp only; rw [hsel]; rfl⟩
    · exact ⟨.noMatch, by dsimp only; rw [hsel, M.bind_error (M.lift_apply _ _)]⟩

/-- Tag 3 read for the example union of three fields; a tag that was never set; a choice without default. -/
example : Reader.readVar .varsize ⟨[3, 0], 16, 0⟩ = (.ok 3, ⟨[3, 0], 16, 8⟩) ∧ (∃ fs, Demo.schema 1 = .union fs) ∧
    ((Demo.schema.codec 2 1).fromReader [] ⟨[3, 0], 16, 0⟩).1 = .error .noMatch ∧
    Union.NotAMember [({ type := .other .string } : FieldDef)] (-1) ∧
    Choice.NoMatch [⟨[1, 2], none⟩, ⟨[5], none⟩] none 3 :=
  ⟨by rfl, ⟨_, rfl⟩, by decide +kernel, .inl (by decide), rfl, by simp⟩

end Zserio
