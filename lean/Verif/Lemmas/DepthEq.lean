import Verif.Lemmas.Depth
import Verif.Model.CompoundEq
set_option linter.unusedSimpArgs false
/-
`__eq__` and `__hash__` of compounds depend on those of the compounds they refer to only as far as they call them.
-/
namespace Zserio.Mono

structure EqLe (b : Prop) (P : Val → Prop) (x y : EqHash) : Prop where
  eq : ∀ v u, P v → ELe b (x.eq v u) (y.eq v u)
  hash : ∀ v, P v → ELe b (x.hash v) (y.hash v)

variable {b : Prop} {P : Val → Prop}

theorem eqOrNone {f g : Val → Val → Except Err Bool} (v u : Val) (h : ELe b (f v u) (g v u)) :
    ELe b (v.eqOrNone u f) (v.eqOrNone u g) := by
  unfold Val.eqOrNone
  split <;> first | exact h | exact ELe.refl _

theorem orNone {α : Type} {f g : Val → Except Err α} (v : Val) (h : ELe b (f v) (g v)) : ELe b (v.orNone f) (v.orNone g) := by
  unfold Val.orNone
  split
  · exact ELe.refl _
  · exact ELe.refl _
  · exact ELe.bind h fun _ _ => ELe.refl _

theorem hashObj {f g : Val → Except Err Int} (s : Int) (v : Val) (h : ELe b (f v) (g v)) :
    ELe b (ElemType.hashObj s v f) (ElemType.hashObj s v g) :=
  ELe.bind (orNone v h) fun _ _ => ELe.refl _

section
variable {k k' : Nat → EqHash} (h : ∀ id, EqLe b P (k id) (k' id))
include h

theorem elemEq (t : ElemType) (v u : Val) (hv : P v) : ELe b (t.eq k v u) (t.eq k' v u) := by
  refine eqOrNone v u ?_
  cases t with
  | compound id args => exact (h id).eq v u hv
  | _ => exact ELe.refl _

theorem elemHash (t : ElemType) (w : Bool) (s : Int) (v : Val) (hv : P v) : ELe b (t.hash k w s v) (t.hash k' w s v) := by
  cases t with
  | compound id args => exact hashObj s v ((h id).hash v hv)
  | _ => exact ELe.refl _

theorem elemHashElem (t : ElemType) (s : Int) (v : Val) (hv : P v) : ELe b (t.hashElem k s v) (t.hashElem k' s v) := by
  cases t with
  | compound id args => exact hashObj s v ((h id).hash v hv)
  | _ => exact ELe.refl _

theorem eqListLe (t : ElemType) : ∀ (xs ys : List Val), (∀ x ∈ xs, P x) → ELe b (eqList (t.eq k) xs ys) (eqList (t.eq k') xs ys)
  | [], _, _ => ELe.refl _
  | _ :: _, [], _ => ELe.refl _
  | x :: xs, y :: ys, hx => by
    simp only [eqList]
    refine ELe.bind (elemEq h t x y (hx x (by simp))) fun r _ => ?_
    split
    · exact eqListLe t xs ys fun z hz => hx z (by simp [hz])
    · exact ELe.refl _

theorem foldHash (t : ElemType) : ∀ (xs : List Val) (s : Int), (∀ x ∈ xs, P x) →
    ELe b (xs.foldlM (t.hashElem k) s) (xs.foldlM (t.hashElem k') s)
  | [], s, _ => ELe.refl _
  | x :: xs, s, hx => by
    simp only [List.foldlM_cons]
    exact ELe.bind (elemHashElem h t s x (hx x (by simp))) fun r _ => foldHash t xs r fun z hz => hx z (by simp [hz])

theorem fieldEqValue (f : FieldDef) (v u : Val) (hv : Q P v) : ELe b (f.eqValue k v u) (f.eqValue k' v u) := by
  unfold FieldDef.eqValue
  split
  · exact elemEq h _ v u hv.1
  · refine eqOrNone v u ?_
    refine ELe.bind (ELe.refl _) fun xs hxs => ?_
    refine ELe.bind (ELe.refl _) fun ys _ => ?_
    split
    · exact eqListLe h _ xs ys (hv.2 xs (asArr_ok hxs))
    · exact ELe.refl _

theorem fieldEq (f : FieldDef) (e e' : Env) (p p' : Bool) (v u : Val) (hv : Q P v) :
    ELe b (f.eq k e e' p p' v u) (f.eq k' e e' p p' v u) := by
  have hval := fieldEqValue h f v u hv
  have hopt : ELe b (f.eqOptional k e e' v u) (f.eqOptional k' e e' v u) := by
    unfold FieldDef.eqOptional
    split
    · exact hval
    · refine ELe.bind (ELe.refl _) fun r _ => ?_
      split
      · exact hval
      · exact ELe.refl _
  unfold FieldDef.eq
  split
  · split
    · split
      · exact hopt
      · exact ELe.refl _
    · exact ELe.refl _
  · exact hopt

theorem fieldHashValue (f : FieldDef) (s : Int) (v : Val) (hv : Q P v) : ELe b (f.hashValue k s v) (f.hashValue k' s v) := by
  unfold FieldDef.hashValue
  split
  · exact elemHash h _ _ s v hv.1
  · split
    · exact ELe.refl _
    · refine hashObj s _ ?_
      exact ELe.bind (ELe.refl _) fun xs hxs => foldHash h _ xs _ (hv.2 xs (asArr_ok hxs))

theorem fieldHash (f : FieldDef) (e : Env) (p : Bool) (s : Int) (v : Val) (hv : Q P v) : ELe b (f.hash k e p s v) (f.hash k' e p s v) := by
  unfold FieldDef.hash
  split
  · exact ELe.refl _
  · refine ELe.bind (ELe.refl _) fun r _ => ?_
    split
    · exact fieldHashValue h f s v hv
    · exact ELe.refl _

theorem structEq (ps : List Int) (n n' base : Nat) : ∀ (fs : List FieldDef) (prior prior' vs us : List Val), (∀ v ∈ vs, Q P v) →
    ELe b (Struct.eq k ps n n' base fs prior prior' vs us) (Struct.eq k' ps n n' base fs prior prior' vs us)
  | [], _, _, [], [], _ => ELe.refl _
  | [], _, _, [], _ :: _, _ => ELe.refl _
  | [], _, _, _ :: _, _, _ => ELe.refl _
  | _ :: _, _, _, [], _, _ => ELe.refl _
  | _ :: _, _, _, _ :: _, [], _ => ELe.refl _
  | f :: fs, prior, prior', v :: vs, u :: us, hv => by
    simp only [Struct.eq]
    refine ELe.bind (fieldEq h f _ _ _ _ v u (hv v (by simp))) fun r _ => ?_
    split
    · exact structEq ps n n' base fs _ _ vs us fun z hz => hv z (by simp [hz])
    · exact ELe.refl _

theorem structHash (ps : List Int) (n base : Nat) : ∀ (fs : List FieldDef) (prior vs : List Val) (s : Int), (∀ v ∈ vs, Q P v) →
    ELe b (Struct.hash k ps n base fs prior vs s) (Struct.hash k' ps n base fs prior vs s)
  | [], _, [], _, _ => ELe.refl _
  | [], _, _ :: _, _, _ => ELe.refl _
  | _ :: _, _, [], _, _ => ELe.refl _
  | f :: fs, prior, v :: vs, s, hv => by
    simp only [Struct.hash]
    exact ELe.bind (fieldHash h f _ _ s v (hv v (by simp))) fun r _ => structHash ps n base fs _ vs r fun z hz => hv z (by simp [hz])

theorem branchEq (f : Option FieldDef) (v u : Val) (hv : Q P v) : ELe b (Branch.eq k f v u) (Branch.eq k' f v u) := by
  cases f with
  | none => exact ELe.refl _
  | some f => exact fieldEqValue h f v u hv

theorem branchHash (f : Option FieldDef) (s : Int) (v : Val) (hv : Q P v) : ELe b (Branch.hash k f s v) (Branch.hash k' f s v) := by
  cases f with
  | none => exact ELe.refl _
  | some f => exact fieldHashValue h f s v hv

theorem compoundEq (P' : Val → Prop) (hP : ∀ ps n tag vs, P' (.obj ps n tag vs) → ∀ v ∈ vs, Q P v) (kinds : List ParamKind)
    (d : CompoundDef) : EqLe b P' (d.eqHash k kinds) (d.eqHash k' kinds) := by
  cases d with
  | struct fs =>
    refine ⟨fun v u hv => ?_, fun v hv => ?_⟩
    · cases v with
      | obj ps n tag vs =>
        cases u with
        | obj qs n' tag' us =>
          simp only [CompoundDef.eqHash, Struct.eqHash]
          split
          · exact structEq h ps n n' _ fs [] [] vs us (hP _ _ _ _ hv)
          · exact ELe.refl _
        | _ => exact ELe.refl _
      | _ => exact ELe.refl _
    · cases v with
      | obj ps n tag vs => exact structHash h ps n _ fs [] vs _ (hP _ _ _ _ hv)
      | _ => exact ELe.refl _
  | union fs =>
    refine ⟨fun v u hv => ?_, fun v hv => ?_⟩
    · simp only [CompoundDef.eqHash, Union.eqHash]
      split
      · split
        · split
          · exact branchEq h _ _ _ (hP _ _ _ _ hv _ (by simp))
          · exact ELe.refl _
        · exact ELe.refl _
      · exact ELe.refl _
    · simp only [CompoundDef.eqHash, Union.eqHash]
      split
      · exact branchHash h _ _ _ (hP _ _ _ _ hv _ (by simp))
      · exact ELe.refl _
  | choice sel cs de =>
    refine ⟨fun v u hv => ?_, fun v hv => ?_⟩
    · simp only [CompoundDef.eqHash, Choice.eqHash]
      split
      · split
        · split
          · exact branchEq h _ _ _ (hP _ _ _ _ hv _ (by simp))
          · exact ELe.refl _
        · exact ELe.refl _
      · exact ELe.refl _
    · simp only [CompoundDef.eqHash, Choice.eqHash]
      split
      · refine ELe.bind (ELe.refl _) fun s _ => ?_
        split
        · exact branchHash h _ _ _ (hP _ _ _ _ hv _ (by simp))
        · exact ELe.refl _
      · exact ELe.refl _

end

theorem eqHash_mono (defs : Schema) (kinds : Nat → List ParamKind) : ∀ n m, n ≤ m → ∀ id,
    EqLe True (fun _ => True) (defs.eqHash kinds n id) (defs.eqHash kinds m id)
  | 0, m, _, id => ⟨fun _ _ _ => .inl ⟨trivial, rfl⟩, fun _ _ => .inl ⟨trivial, rfl⟩⟩
  | n + 1, m + 1, hle, id => compoundEq (eqHash_mono defs kinds n m (by omega)) _
      (fun _ _ _ _ _ _ _ => ⟨trivial, fun _ _ _ _ => trivial⟩) (kinds id) (defs id)

theorem eqHash_depth (defs : Schema) (kinds : Nat → List ParamKind) : ∀ n m, n ≤ m → ∀ id,
    EqLe False (fun v => v.depth < n) (defs.eqHash kinds n id) (defs.eqHash kinds m id)
  | 0, m, _, id => ⟨fun _ _ h => absurd h (by simp), fun _ h => absurd h (by simp)⟩
  | n + 1, m + 1, hle, id => by
    refine compoundEq (eqHash_depth defs kinds n m (by omega)) _ (fun ps k tag vs h v hv => ?_) (kinds id) (defs id)
    have hd := depth_mem hv
    simp only [Val.depth] at h
    refine ⟨by omega, ?_⟩
    rintro xs rfl x hx
    have := depth_mem hx
    simp only [Val.depth] at hd
    show x.depth < n
    omega

end Zserio.Mono
