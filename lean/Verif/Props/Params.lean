import Verif.Lemmas.Params
import Verif.Model.JsonText
/-
C90: The parameters of the fields of an object are what the expressions of the schema give.  When an object is written the parameters of
its fields are compared with the expressions, values of built-in types by value and objects by identity; an object which was read passes.
-/
namespace Zserio.Params

/-- What the check accepts: every field which is used and has arguments holds an object whose parameters are the same as the results of the
arguments: equal values of built-in types, and otherwise the same objects. -/
theorem C90_check_iff (fs : List Field) (h : Heap) (self : Nat) : check fs h self = .ok () ↔
    ∃ ps vs, h.inst self = .ok (ps, vs) ∧ fs.length ≤ vs.length ∧ ∀ (i : Nat) (f : Field), fs[i]? = some f →
      ∃ v b, vs[i]? = some v ∧ f.used h self = .ok b ∧
        (b = true → ∀ args read, f.content = .compound args read → ∃ a qs us, v = .ref a ∧ h.inst a = .ok (qs, us) ∧
          args.length ≤ qs.length ∧ ∀ (j : Nat) (p : Kind × Arg), args[j]? = some p →
            ∃ q r, qs[j]? = some q ∧ p.2.eval h self = .ok r ∧ Same p.1 q r) := by
  unfold check
  constructor
  · intro hc
    obtain ⟨o, ho, hc⟩ := bind_ok hc
    obtain ⟨hl, hall⟩ := checkFields_iff.1 hc
    refine ⟨o.1, o.2, ho, hl, fun i f hf => ?_⟩
    obtain ⟨v, hv, hch⟩ := hall i f hf
    obtain ⟨b, hb, hx⟩ := field_check_iff.1 hch
    refine ⟨v, b, hv, hb, fun ht args read hcont => ?_⟩
    obtain ⟨a, o', ha, hi, hp⟩ := hx ht args read hcont
    obtain ⟨h1, h2⟩ := checkParams_ok.1 hp
    exact ⟨a, o'.1, o'.2, ha, hi, h1, h2⟩
  · rintro ⟨ps, vs, ho, hl, hall⟩
    rw [ho]
    refine checkFields_iff.2 ⟨hl, fun i f hf => ?_⟩
    obtain ⟨v, b, hv, hb, hx⟩ := hall i f hf
    refine ⟨v, hv, field_check_iff.2 ⟨b, hb, fun ht args read hcont => ?_⟩⟩
    obtain ⟨a, qs, us, ha, hi, h1, h2⟩ := hx ht args read hcont
    exact ⟨a, _, ha, hi, checkParams_ok.2 ⟨h1, h2⟩⟩

/-- An object which was read passes the check, also when other objects have been created since (`more`): if arguments which are objects are
references (not results of operators of bitmasks), and arguments of built-in types are no NaN.

Missing: arguments which are results of operators of bitmasks, and NaNs, for which it does not hold (`C90_operator`, `C90_nan_deviates`). -/
theorem C90_reread_partial (params : List Value) (fs : List Field) (h h' more : Heap) (hr : fromReader params fs h = .ok h')
    (hobj : ∀ f ∈ fs, ∀ p ∈ f.args, p.1 = .object → p.2.Refers)
    (hbuiltin : ∀ f ∈ fs, ∀ p ∈ f.args, p.1 = .builtin → ∀ r, p.2.eval (h' ++ more) h.length = .ok r →
      ∃ a, r = .value (.atom a) ∧ a.NotNaN) :
    check fs (h' ++ more) h.length = .ok () := by
  have hi : Heap.inst (h ++ [Obj.inst params []]) h.length = .ok (params, []) := inst_ok.2 (by simp)
  obtain ⟨-, vs, hvs, hl, hch⟩ := readFields_check hr hi hobj
  have := hch _ (Grows.add h' more) hbuiltin
  unfold check
  rw [inst_add hvs]
  exact this

/-- Reading sets the parameters of the object to those which were given and one value for every field, and every object which existed
before is unchanged. -/
theorem C90_read_keeps (params : List Value) (fs : List Field) (h h' : Heap) (hr : fromReader params fs h = .ok h') :
    (∃ vs, h'.inst h.length = .ok (params, vs) ∧ vs.length = fs.length) ∧ ∀ a < h.length, h'[a]? = h[a]? := by
  have hi : Heap.inst (h ++ [Obj.inst params []]) h.length = .ok (params, []) := inst_ok.2 (by simp)
  obtain ⟨-, hoth, vs, hvs, hl⟩ := readFields_others hr hi
  refine ⟨⟨vs, by simpa using hvs, hl⟩, fun a ha => ?_⟩
  rw [hoth a (by simp; omega) (by omega), List.getElem?_append_left ha]

/-- An object is refused if a field which is used has an argument whose result is a new object of a bitmask: there is no object which could
be written. -/
theorem C90_operator (fs : List Field) (h : Heap) (self : Nat) (i : Nat) (f : Field) (args : List (Kind × Arg))
    (read : List Value → Heap → Except Err (List Value × List Obj)) (p : Kind × Arg)
    (hf : fs[i]? = some f) (hu : f.used h self = .ok true) (hc : f.content = .compound args read) (hp : p ∈ args)
    (hk : p.1 = .object) (hm : p.2.Computes) : check fs h self ≠ .ok () := by
  intro hch
  obtain ⟨ps, vs, -, -, hall⟩ := (C90_check_iff fs h self).1 hch
  obtain ⟨v, b, -, hb, hx⟩ := hall i f hf
  rw [hu] at hb
  cases hb
  obtain ⟨a, qs, us, -, -, -, hj⟩ := hx rfl args read hc
  obtain ⟨j, hlt, hget⟩ := List.mem_iff_getElem.1 hp
  obtain ⟨q, r, -, hev, hs⟩ := hj j p (by rw [List.getElem?_eq_getElem hlt, hget])
  obtain ⟨m, rfl⟩ := eval_computes p.2 hm hev
  rw [hk] at hs
  cases hs

/-- The result of an operator of bitmasks is a new bitmask with the result for the bits of both operands, which may be results of operators
themselves. -/
theorem C90_bits (h : Heap) (self : Nat) (f : Int → Int → Except Err Int) (x y : Arg) (r s : Result) (a b c : Int)
    (hx : x.eval h self = .ok r) (hy : y.eval h self = .ok s) (ha : HasBits h r a) (hb : HasBits h s b) (hc : f a b = .ok c) :
    ∃ t, (Arg.mask f x y).eval h self = .ok t ∧ HasBits h t c := by
  have hm : ∀ {r a}, HasBits h r a → r.mask h = .ok a := by
    intro r a hr
    cases hr with
    | old i m hi => simp [Result.mask, hi]
    | new m => rfl
  refine ⟨.fresh c, ?_, .new c⟩
  simp only [Arg.eval, hx, hy, hm ha, hm hb, hc, bind, Except.bind]

/-! ### Examples

```
bitmask uint8 Perm { READ, WRITE };
struct Child(Perm p, float64 n) { uint8 v; };
struct Parent(Perm q) { Perm a; float64 n; bool has; Child(a, n) c if has; Child(Perm.READ, n) d; };
struct Masked(Perm q) { Perm a; Child(a | Perm.READ, 1.0) c; };
``` -/

/-- `Perm.Values.READ`, `Perm.Values.WRITE` and an object with both -/
def perms : Heap := [.item 1, .item 2, .item 3]

/-- a field with a new object of a bitmask -/
def newMask (m : Int) : Field := ⟨none, .plain fun h => .ok (.ref h.length, [.item m])⟩
def plainAtom (a : Atom) : Field := ⟨none, .plain fun _ => .ok (.atom a, [])⟩
def childField (condition : Option Arg) (p n : Arg) : Field :=
  ⟨condition, .compound [(.object, p), (.builtin, n)] fun _ _ => .ok ([.atom (.int 7)], [])⟩

/-- 1.0 -/
def one : PyFloat := 0x3FF0000000000000
/-- a NaN -/
def nan : PyFloat := 0x7FF8000000000000

def parent (n : PyFloat) (has : Bool) : List Field :=
  [newMask 3, plainAtom (.float n), plainAtom (.bool has), childField (some (.field 2)) (.field 0) (.field 1),
    childField none (.known 0) (.field 1)]

def masked : List Field :=
  [newMask 2, childField none (.mask (fun a b => .ok ((a.toNat ||| b.toNat : Nat) : Int)) (.field 0) (.known 0)) (.atom (.float one))]

/-- the object of the structure Parent which was read -/
def parentHeap : Heap := perms ++
  [.inst [.ref 2] [.ref 4, .atom (.float one), .atom (.bool true), .ref 5, .ref 6], .item 3,
    .inst [.ref 4, .atom (.float one)] [.atom (.int 7)], .inst [.ref 0, .atom (.float one)] [.atom (.int 7)]]

deriving instance DecidableEq for Except

/-- the hypotheses of `C90_reread_partial` hold of the structure Parent; its check passes -/
example : fromReader [.ref 2] (parent one true) perms = .ok parentHeap ∧ check (parent one true) parentHeap 3 = .ok () := by
  have hr : fromReader [.ref 2] (parent one true) perms = .ok parentHeap := by decide +kernel
  refine ⟨hr, ?_⟩
  have := C90_reread_partial [.ref 2] (parent one true) perms parentHeap [] hr (by
      intro f hf p hp hk
      simp only [parent, List.mem_cons, List.not_mem_nil, or_false] at hf
      rcases hf with rfl | rfl | rfl | rfl | rfl <;>
        simp only [newMask, plainAtom, childField, Field.args, List.mem_cons, List.not_mem_nil, or_false] at hp
      all_goals (rcases hp with rfl | rfl <;> first | trivial | cases hk)) (by
      intro f hf p hp hk r hr
      have hev : Arg.eval (parentHeap ++ []) perms.length (.field 1) = .ok (.value (.atom (.float one))) := by decide +kernel
      simp only [parent, List.mem_cons, List.not_mem_nil, or_false] at hf
      rcases hf with rfl | rfl | rfl | rfl | rfl <;>
        simp only [newMask, plainAtom, childField, Field.args, List.mem_cons, List.not_mem_nil, or_false] at hp
      all_goals (
        rcases hp with rfl | rfl
        · cases hk
        · rw [hev] at hr
          cases hr
          exact ⟨_, rfl, fun x hx => by cases hx; decide +kernel⟩))
  simpa [perms] using this

/-- A field whose argument is the result of an operator of bitmasks: the object which was just read cannot be written. -/
theorem C90_operator_deviates : ∃ (fs : List Field) (h h' : Heap), fromReader [.ref 2] fs h = .ok h' ∧
    check fs h' h.length = .error .parameter :=
  ⟨masked, perms, perms ++ [.inst [.ref 2] [.ref 4, .ref 6], .item 2, .item 3, .inst [.ref 5, .atom (.float one)] [.atom (.int 7)]],
    by decide +kernel, by decide +kernel⟩

/-- the hypotheses of `C90_operator` hold for every object of the structure Masked -/
example (h : Heap) (self : Nat) : check masked h self ≠ .ok () :=
  C90_operator masked h self 1 _ _ _ _ rfl rfl rfl (List.mem_cons_self ..) rfl trivial

/-- the hypotheses of `C90_bits`: `a | Perm.READ | Perm.WRITE` -/
example : ∃ t, (Arg.mask (fun a b => .ok ((a.toNat ||| b.toNat : Nat) : Int)) (.mask (fun a b => .ok ((a.toNat ||| b.toNat : Nat) : Int))
    (.known 0) (.known 0)) (.known 1)).eval perms 0 = .ok t ∧ HasBits perms t 3 :=
  C90_bits perms 0 _ _ _ (.fresh 1) (.value (.ref 1)) 1 2 3 (by decide +kernel) (by decide +kernel) (.new 1) (.old 1 2 rfl) rfl

/-- A NaN as argument: the object which was just read cannot be written. -/
theorem C90_nan_deviates : ∃ h', fromReader [.ref 2] (parent nan true) perms = .ok h' ∧
    check (parent nan true) h' perms.length = .error .parameter :=
  ⟨perms ++
    [.inst [.ref 2] [.ref 4, .atom (.float nan), .atom (.bool true), .ref 5, .ref 6], .item 3,
      .inst [.ref 4, .atom (.float nan)] [.atom (.int 7)], .inst [.ref 0, .atom (.float nan)] [.atom (.int 7)]],
    by decide +kernel, by decide +kernel⟩

/-- A child made with an equal object of the bitmask (address 7 instead of 4) is refused, although the values are equal. -/
theorem C90_equal_deviates : ∃ h : Heap, h[4]? = some (.item 3) ∧ h[7]? = some (.item 3) ∧
    h.inst 3 = .ok ([.ref 2], [.ref 4, .atom (.float one), .atom (.bool true), .ref 5, .ref 6]) ∧
    h.inst 5 = .ok ([.ref 7, .atom (.float one)], [.atom (.int 7)]) ∧
    h.inst 6 = .ok ([.ref 0, .atom (.float one)], [.atom (.int 7)]) ∧
    check (parent one true) h 3 = .error .parameter :=
  ⟨perms ++
    [.inst [.ref 2] [.ref 4, .atom (.float one), .atom (.bool true), .ref 5, .ref 6], .item 3,
      .inst [.ref 7, .atom (.float one)] [.atom (.int 7)], .inst [.ref 0, .atom (.float one)] [.atom (.int 7)], .item 3],
    by decide +kernel⟩

end Zserio.Params
