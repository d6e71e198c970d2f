/-
Modelling conventions: exceptions as values, mutable objects as state.
-/
namespace Zserio

/-- Exceptions the modelled code can raise.  Every constructor names the raise site(s) it stands for; messages
are not modelled. -/
inductive Err where
  /-- `numbits` not in [1,64] (bitwriter.py:45-46, 60-61; bitreader.py:76-77, 90-91). -/
  | numbits
  /-- value out of the range of a fixed-width write (bitwriter.py:78-81, 99-102). -/
  | range
  /-- `OverflowError` of `int.to_bytes`. -/
  | overflow
  /-- value out of range in `_bitsizeof_varnum` (bitsizeof.py:166). -/
  | varRange
  /-- bit size bigger than the buffer (bitbuffer.py:32-36, bitreader.py:34-38). -/
  | bitsize
  /-- reading behind the stream (bitreader.py:108-109, 495-496, 522-523, 558-559; array.py:338-339). -/
  | eos
  /-- varsize value read from the stream is too big (bitreader.py:448-451). -/
  | varsizeRange
  /-- bit position set outside of the stream (bitreader.py:602-605). -/
  | position
  /-- `UnicodeEncodeError` / `UnicodeDecodeError`. -/
  | unicode
  /-- `ValueError: negative shift count` of `<<`. -/
  | negativeShift
  /-- `ZeroDivisionError`. -/
  | zeroDivision
  /-- `IndexError`. -/
  | index
  /-- not a multiple of 8 (bitposition.py:31-33). -/
  | notByteAligned
  /-- invalid bit field length (bitfield.py:60-62). -/
  | bitfieldLength
  /-- implicit array without constant element size / packed implicit array (array.py:321-322, 372-373). -/
  | implicitArray
  /-- wrong offset (CompoundField.inc.ftl:327-335). -/
  | offset
  /-- constraint violated (CompoundField.inc.ftl:337-344). -/
  | constraint
  /-- wrong array length (CompoundField.inc.ftl:346-354). -/
  | arrayLength
  /-- wrong parameter (CompoundField.inc.ftl:356-368). -/
  | parameter
  /-- no match in a union or choice (Union.py.ftl:11-14, Choice.py.ftl:11-14). -/
  | noMatch
  /-- value is not an item of the enumeration (`ValueError` of `enum.Enum`). -/
  | enumValue
  /-- writing of a removed enumeration item (Enumeration.py.ftl:234). -/
  | removedItem
  /-- out of bounds bitmask value (Bitmask.py.ftl:35-36). -/
  | bitmaskBounds
  /-- an operation applied to a value of the wrong Python type (`TypeError` / `AttributeError`). -/
  | type
  /-- `RecursionError` of the interpreter. -/
  | recursion
  /-- JSON parser / decoder errors (json.py). -/
  | json
  /-- walker errors (walker.py:233-242). -/
  | walker
  /-- tree creator errors (creator.py). -/
  | creator
  /-- service / pubsub errors. -/
  | service
  /-- errors of SQLite and of its Python binding (`apsw.Error`), unknown column names (SqlTable.py.ftl:357). -/
  | sql
  /-- `OSError`, a file which does not exist. -/
  | os
  /-- more than one member given to the constructor of a union or choice (Union.py.ftl:63-64, Choice.py.ftl:85-86). -/
  | ambiguous
  deriving DecidableEq, Repr

/-- A method of a mutable object with state `σ`: it returns a value or raises, and in both cases leaves a
state behind (so that effects that happen before a `raise` are visible). -/
def M (σ α : Type) : Type := σ → Except Err α × σ

namespace M
variable {σ α β : Type}

/-- return without effect -/
@[inline] protected def pure (a : α) : M σ α := fun s => (.ok a, s)
/-- sequencing; an exception stops the computation -/
@[inline] protected def bind (x : M σ α) (f : α → M σ β) : M σ β := fun s =>
  match x s with
  | (.ok a, s') => f a s'
  | (.error e, s') => (.error e, s')
/-- `raise` -/
@[inline] def throw (e : Err) : M σ α := fun s => (.error e, s)
/-- read the object's state -/
@[inline] def get : M σ σ := fun s => (.ok s, s)
/-- assign the object's state -/
@[inline] def set (s : σ) : M σ Unit := fun _ => (.ok (), s)
/-- run a computation that has no access to the object -/
@[inline] def lift (x : Except Err α) : M σ α := fun s => (x, s)

instance : Monad (M σ) where
  pure := M.pure
  bind := M.bind

@[simp] theorem pure_apply (a : α) (s : σ) : (pure a : M σ α) s = (.ok a, s) := rfl
theorem bind_apply (x : M σ α) (f : α → M σ β) (s : σ) :
    (x >>= f) s = match x s with
      | (.ok a, s') => f a s'
      | (.error e, s') => (.error e, s') := rfl
@[simp] theorem throw_apply (e : Err) (s : σ) : (throw e : M σ α) s = (.error e, s) := rfl
@[simp] theorem get_apply (s : σ) : (get : M σ σ) s = (.ok s, s) := rfl
@[simp] theorem set_apply (s t : σ) : (set t : M σ Unit) s = (.ok (), t) := rfl
@[simp] theorem lift_apply (x : Except Err α) (s : σ) : (lift x : M σ α) s = (x, s) := rfl

theorem bind_ok {x : M σ α} {f : α → M σ β} {s s' : σ} {a : α} (h : x s = (.ok a, s')) :
    (x >>= f) s = f a s' := by rw [bind_apply, h]
theorem bind_error {x : M σ α} {f : α → M σ β} {s s' : σ} {e : Err} (h : x s = (.error e, s')) :
    (x >>= f) s = (.error e, s') := by rw [bind_apply, h]

@[simp] theorem pure_bind' (a : α) (f : α → M σ β) : (pure a >>= f) = f a := rfl

theorem bind_assoc' {γ : Type} (x : M σ α) (f : α → M σ β) (g : β → M σ γ) :
    (x >>= f >>= g) = (x >>= fun a => f a >>= g) := by
  funext s
  simp only [bind_apply]
  rcases x s with ⟨_ | _, _⟩ <;> rfl

instance : LawfulMonad (M σ) := LawfulMonad.mk'
  (id_map := by intro α x; funext s; show (x >>= _) s = _; rw [bind_apply]; rcases x s with ⟨_ | _, _⟩ <;> rfl)
  (pure_bind := by intros; rfl)
  (bind_assoc := by intros; apply bind_assoc')

end M

end Zserio
