import Verif.Spec.Rebuild
import Verif.Lemmas.Creator
import Verif.Lemmas.Walker
import Verif.Lemmas.Array
/-
The events of a walk, fed to a tree creator, build the walked object again.
-/
set_option linter.unusedSimpArgs false
namespace Zserio

theorem Val.eraseExts_eq (xs : List Val) : Val.eraseExts xs = xs.map Val.eraseExt := by
  induction xs with
  | nil => rfl
  | cons x xs ih => simp [Val.eraseExts, ih]

namespace Rebuild
open Creator Walker
variable {I : TypeInfos} {complete : Prop}

/-- the rebuilt value -/
def Same (complete : Prop) (v v' : Val) : Prop := v'.eraseExt = v.eraseExt ∧ (complete → v' = v)

theorem Same.refl (v : Val) : Same complete v v := ⟨rfl, fun _ => rfl⟩

/-- the rebuilt list -/
def SameList (complete : Prop) (l l' : List Val) : Prop := l'.map Val.eraseExt = l.map Val.eraseExt ∧ (complete → l' = l)

theorem SameList.nil : SameList complete [] [] := ⟨rfl, fun _ => rfl⟩

theorem SameList.cons {v v' : Val} {l l' : List Val} (h : Same complete v v') (hl : SameList complete l l') :
    SameList complete (v :: l) (v' :: l') :=
  ⟨by simp [h.1, hl.1], fun hc => by rw [h.2 hc, hl.2 hc]⟩

theorem SameList.snoc {v v' : Val} {l l' : List Val} (hl : SameList complete l l') (h : Same complete v v') :
    SameList complete (l ++ [v]) (l' ++ [v']) :=
  ⟨by simp [h.1, hl.1], fun hc => by rw [h.2 hc, hl.2 hc]⟩

/-- the type arguments of the field `m` of the object `p` see what they see of the original object -/
def Sees (I : TypeInfos) (pid : Nat) (p : Val) (m : MemberInfo) (env : Env) : Prop :=
  m ∈ (I pid).fields ∧ ∀ idx : Option Nat, ∃ env', argEnv (I pid) p m idx = .ok env' ∧
    env'.eraseExt = ({ env with index := idx.getD 0 } : Env).eraseExt

theorem evalArgs_congr {as : List (Expr Int)} {env env' : Env} (h : ∀ e ∈ as, e env = e env') : evalArgs as env = evalArgs as env' := by
  induction as with
  | nil => rfl
  | cons a as ih =>
    simp only [evalArgs]
    rw [h a (by simp), ih fun e he => h e (by simp [he])]

theorem Sees.create (hI : I.Regular) {pid : Nat} {p : Val} {m : MemberInfo} {env : Env} (h : Sees I pid p m env) {idx : Option Nat}
    (hi : env.index = idx.getD 0) {ps : List Int} (ha : evalArgs m.args env = .ok ps) (cid : Nat) :
    createObject I (I pid) m cid p idx = (I cid).new ps := by
  obtain ⟨hm, h⟩ := h
  obtain ⟨env', h1, h2⟩ := h idx
  have henv : ({ env with index := idx.getD 0 } : Env) = env := by rw [← hi]
  rw [henv] at h2
  have : evalArgs m.args env' = .ok ps := by
    rw [← ha]
    exact evalArgs_congr fun e he => hI.args pid m hm e he _ _ h2
  unfold createObject
  rw [h1]
  simp only [ok_bind, this]

theorem fieldNamed {id : Nat} {m : MemberInfo} (hI : I.Regular) (hm : m ∈ (I id).fields) : FieldNamed (I id).fields m.schemaName m := by
  obtain ⟨l, r, hlr⟩ := List.append_of_mem hm
  refine ⟨l, r, hlr, rfl, ?_⟩
  intro m' hm' he
  have := hI.names id
  rw [hlr, List.map_append, List.map_cons, List.nodup_append] at this
  exact this.2.2 _ (List.mem_map_of_mem hm') _ (by simp) he

/-- `Feeds I f events f'`: the events of a walk, fed to a tree creator, lead from `f` to `f'` -/
inductive Feeds (I : TypeInfos) : Frame → List Event → Frame → Prop where
  | nil {f : Frame} : Feeds I f [] f
  | value {id : Nat} {o o₁ v : Val} {m : MemberInfo} {es : List Event} {f : Frame} :
    FieldNamed (I id).fields m.schemaName m →
    v = .none ∨ m.isArray = false ∧ (∀ cid, m.type ≠ .compound cid) ∧ isInstance m.type v = true →
    (I id).setAttr o m v = .ok o₁ → Feeds I (.compound id o₁) es f → Feeds I (.compound id o) (.visitValue v m none :: es) f
  | compound {id cid : Nat} {o o₁ c c' v : Val} {m : MemberInfo} {es₁ es : List Event} {f : Frame} :
    FieldNamed (I id).fields m.schemaName m → m.isArray = false → m.type = .compound cid →
    createObject I (I id) m cid o none = .ok c → Feeds I (.compound cid c) es₁ (.compound cid c') →
    (I id).setAttr o m c' = .ok o₁ → Feeds I (.compound id o₁) es f →
    Feeds I (.compound id o) (.beginCompound v m none :: es₁ ++ .endCompound v m none :: es) f
  | array {id : Nat} {o o₁ : Val} {m : MemberInfo} {xs ys : List Val} {es₁ es : List Event} {f : Frame} :
    FieldNamed (I id).fields m.schemaName m → m.isArray = true → Feeds I (.array m id o []) es₁ (.array m id o xs) →
    (I id).setAttr o m (.arr xs) = .ok o₁ → Feeds I (.compound id o₁) es f →
    Feeds I (.compound id o) (.beginArray ys m :: es₁ ++ .endArray ys m :: es) f
  | valueElement {m : MemberInfo} {pid i : Nat} {p v : Val} {xs : List Val} {es : List Event} {f : Frame} :
    v = .none ∨ (∀ cid, m.type ≠ .compound cid) ∧ isInstance m.type v = true → Feeds I (.array m pid p (xs ++ [v])) es f →
    Feeds I (.array m pid p xs) (.visitValue v m (some i) :: es) f
  | compoundElement {m : MemberInfo} {pid cid i : Nat} {p c c' v : Val} {xs : List Val} {es₁ es : List Event} {f : Frame} :
    m.type = .compound cid → createObject I (I pid) m cid p (some xs.length) = .ok c →
    Feeds I (.compound cid c) es₁ (.compound cid c') → Feeds I (.array m pid p (xs ++ [c'])) es f →
    Feeds I (.array m pid p xs) (.beginCompound v m (some i) :: es₁ ++ .endCompound v m (some i) :: es) f

theorem Feeds.builds {f f' : Frame} {es : List Event} (h : Feeds I f es f') : Builds I f (es.map Event.call) f' := by
  induction h with
  | nil => exact .nil
  | value hm hv hs _ ih => exact .value hm (hv.imp id fun h => ⟨h.1, h.2.2⟩) hs ih
  | compound hm ha ht hc _ hs _ ih₁ ih => simpa [Event.call] using Builds.compound hm ha ht hc ih₁ hs ih
  | array hm ha _ hs _ ih₁ ih => simpa [Event.call] using Builds.array hm ha ih₁ hs ih
  | valueElement hv _ ih => exact .valueElement (hv.imp id And.right) ih
  | compoundElement ht hc _ _ ih₁ ih => simpa [Event.call] using Builds.compoundElement ht hc ih₁ ih

theorem Feeds.trans {f f₁ f' : Frame} {es es' : List Event} (h : Feeds I f es f₁) (h' : Feeds I f₁ es' f') :
    Feeds I f (es ++ es') f' := by
  induction h with
  | nil => exact h'
  | value hm hv hs _ ih => exact .value hm hv hs (ih h')
  | compound hm ha ht hc hb hs _ _ ih => simpa [List.append_assoc] using Feeds.compound hm ha ht hc hb hs (ih h')
  | array hm ha hb hs _ _ ih => simpa [List.append_assoc] using Feeds.array hm ha hb hs (ih h')
  | valueElement hv _ ih => exact .valueElement hv (ih h')
  | compoundElement ht hc hb _ _ ih => simpa [List.append_assoc] using Feeds.compoundElement ht hc hb (ih h')

/-- what holds for a value at a place -/
def Works (I : TypeInfos) (complete : Prop) : Place → Val → Prop
  | .object id ps, v => (∃ k tag fs, v = .obj ps k tag fs) ∧ ∃ o₀, (I id).new ps = .ok o₀ ∧ ∃ es v',
    rootFields I defaultFilter id v () = (.ok (), (), es) ∧ Feeds I (.compound id o₀) es (.compound id v') ∧
    Same complete v v'
  | .field m env, v => env.index = 0 → m.get v = .ok v ∧ ∃ es v', field I defaultFilter v m () = (.ok true, (), es) ∧ m.stored v' = v' ∧
    Same complete v v' ∧ ∀ id o o₁, Sees I id o m env → (I id).setAttr o m v' = .ok o₁ →
      Feeds I (.compound id o) es (.compound id o₁)
  | .item m env, x => (∀ i, ∃ es x', element I defaultFilter x m i () = (.ok true, (), es) ∧ Same complete x x' ∧
      ∀ pid p xs, Sees I pid p m env → env.index = xs.length →
        Feeds I (.array m pid p xs) es (.array m pid p (xs ++ [x']))) ∧
    (m.isArray = false → env.index = 0 → m.get x = .ok x ∧ ∃ es x', field I defaultFilter x m () = (.ok true, (), es) ∧
      Same complete x x' ∧ ∀ id o o₁, Sees I id o m env → (I id).setAttr o m x' = .ok o₁ →
        Feeds I (.compound id o) es (.compound id o₁))

theorem default_simple (v : Val) (m : MemberInfo) (idx : Option Nat) :
    Walker.simple defaultFilter v m idx () = (.ok true, (), [.visitValue v m idx]) := rfl

theorem default_compound (v : Val) (m : MemberInfo) (idx : Option Nat) {fields : Walk Unit Unit} {es : List Event}
    (h : fields () = (.ok (), (), es)) :
    Walker.compound defaultFilter v m idx fields () = (.ok true, (), .beginCompound v m idx :: es ++ [.endCompound v m idx]) := by
  unfold Walker.compound
  rw [Walk.bind_ok (a := true) (s' := ()) (es := []) rfl]
  simp only [if_true]
  rw [Walk.bind_ok (a := ()) (s' := ()) (es := [.beginCompound v m idx]) rfl, Walk.bind_ok h,
    Walk.bind_ok (a := ()) (s' := ()) (es := [.endCompound v m idx]) rfl]
  rfl

theorem default_array (xs : List Val) (m : MemberInfo) {elements : Walk Unit Unit} {es : List Event}
    (h : elements () = (.ok (), (), es)) :
    Walker.array defaultFilter xs m elements () = (.ok true, (), .beginArray xs m :: es ++ [.endArray xs m]) := by
  unfold Walker.array
  rw [Walk.bind_ok (a := true) (s' := ()) (es := []) rfl]
  simp only [if_true]
  rw [Walk.bind_ok (a := ()) (s' := ()) (es := [.beginArray xs m]) rfl, Walk.bind_ok h,
    Walk.bind_ok (a := ()) (s' := ()) (es := [.endArray xs m]) rfl]
  rfl

theorem notObject_none (m : MemberInfo) (idx : Option Nat) :
    notObject defaultFilter .none m idx () = (.ok true, (), [.visitValue .none m idx]) := by
  unfold notObject
  cases m.type <;> rfl

/-- a simple value or `None` -/
theorem works_simple (hI : I.Regular) {m : MemberInfo} {env : Env} {x : Val}
    (hx : x = .none ∨ (∀ id, m.type ≠ .compound id) ∧ isInstance m.type x = true) : Works I complete (.item m env) x := by
  have hn : ∀ idx, notObject defaultFilter x m idx () = (.ok true, (), [.visitValue x m idx]) := by
    intro idx
    rcases hx with rfl | ⟨ht, _⟩
    · exact notObject_none m idx
    · unfold notObject
      cases hmt : m.type with
      | compound id => exact absurd hmt (ht id)
      | _ => rfl
  have hobj : ∀ ps k tag fs, x ≠ .obj ps k tag fs := by
    rintro ps k tag fs rfl
    rcases hx with h | ⟨ht, h⟩
    · cases h
    · cases hmt : m.type with
      | compound id => exact ht id hmt
      | builtin b => rw [hmt] at h; cases b <;> simp [isInstance] at h
      | enum e => rw [hmt] at h; simp [isInstance] at h
      | bitmask d => rw [hmt] at h; simp [isInstance] at h
  have harr : ∀ xs, x ≠ .arr xs := by
    rintro xs rfl
    rcases hx with h | ⟨ht, h⟩
    · cases h
    · cases hmt : m.type with
      | compound id => exact ht id hmt
      | builtin b => rw [hmt] at h; cases b <;> simp [isInstance] at h
      | enum e => rw [hmt] at h; simp [isInstance] at h
      | bitmask d => rw [hmt] at h; simp [isInstance] at h
  have hunset : x ≠ .unset := by
    rintro rfl
    rcases hx with h | ⟨ht, h⟩
    · cases h
    · cases hmt : m.type with
      | compound id => exact ht id hmt
      | builtin b => rw [hmt] at h; cases b <;> simp [isInstance] at h
      | enum e => rw [hmt] at h; simp [isInstance] at h
      | bitmask d => rw [hmt] at h; simp [isInstance] at h
  have he : ∀ i, element I defaultFilter x m i = notObject defaultFilter x m (some i) := by
    intro i
    cases x with
    | obj ps k tag fs => exact absurd rfl (hobj ps k tag fs)
    | _ => rfl
  have hf : field I defaultFilter x m = notObject defaultFilter x m none := by
    cases x with
    | obj ps k tag fs => exact absurd rfl (hobj ps k tag fs)
    | arr xs => exact absurd rfl (harr xs)
    | _ => rfl
  refine ⟨fun i => ⟨_, x, by rw [he, hn], .refl _, ?_⟩, fun ha _ => ⟨?_, _, x, by rw [hf, hn], .refl _, ?_⟩⟩
  · intro pid p xs _ _
    exact .valueElement hx .nil
  · cases x with
    | unset => exact absurd rfl hunset
    | _ => simp [MemberInfo.get, ha]
  · intro id o o₁ hs h
    exact .value (fieldNamed hI hs.1) (hx.imp _root_.id fun h => ⟨ha, h.1, h.2⟩) h .nil

theorem works_compound (hI : I.Regular) {m : MemberInfo} {env : Env} {id : Nat} {ps : List Int} {x : Val} (ht : m.type = .compound id)
    (ha : evalArgs m.args env = .ok ps) (h : Works I complete (.object id ps) x) : Works I complete (.item m env) x := by
  obtain ⟨⟨k, tag, fs, rfl⟩, o₀, ho, es, v', hw, hb, hs⟩ := h
  have hobj : ∀ idx, object I defaultFilter (.obj ps k tag fs) ps tag (walkAttrs I defaultFilter fs) m idx () =
      (.ok true, (), .beginCompound (.obj ps k tag fs) m idx :: es ++ [.endCompound (.obj ps k tag fs) m idx]) := by
    intro idx
    unfold object
    simp only [ht]
    exact default_compound _ _ _ hw
  refine ⟨fun i => ⟨_, v', by rw [element, hobj], hs, ?_⟩, fun hna hidx => ⟨?_, _, v', by rw [field, hobj], hs, ?_⟩⟩
  · intro pid p xs hsee hidx
    have hc := hsee.create hI (idx := some xs.length) (by simpa using hidx) ha id
    rw [ho] at hc
    simpa using Feeds.compoundElement ht hc hb .nil
  · simp [MemberInfo.get, hna]
  · intro pid p p₁ hsee hset
    have hc := hsee.create hI (idx := none) (by simpa using hidx) ha id
    rw [ho] at hc
    simpa using Feeds.compound (fieldNamed hI hsee.1) hna ht hc hb hset .nil

theorem works_elements {m : MemberInfo} {env : Env} {xs : List Val} (k : Nat)
    (h : ∀ (i : Nat) (x : Val), xs[i]? = some x → Works I complete (.item m { env with index := k + i }) x) :
    ∃ es xs', elements I defaultFilter xs m k () = (.ok (), (), es) ∧ SameList complete xs xs' ∧
      ∀ pid p zs, Sees I pid p m env → zs.length = k →
        Feeds I (.array m pid p zs) es (.array m pid p (zs ++ xs')) := by
  induction xs generalizing k with
  | nil => exact ⟨[], [], rfl, .nil, fun pid p zs _ _ => by simpa using Feeds.nil⟩
  | cons x xs ih =>
    obtain ⟨es₁, x', hw, hs, hb⟩ := (h 0 x (by simp)).1 k
    obtain ⟨es₂, xs', hw₂, hs₂, hb₂⟩ := ih (k + 1) (by
      intro i y hy
      have := h (i + 1) y (by simpa using hy)
      rw [show k + 1 + i = k + (i + 1) by omega]
      exact this)
    refine ⟨es₁ ++ es₂, x' :: xs', ?_, .cons hs hs₂, ?_⟩
    · rw [elements, Walk.bind_ok hw]
      simp only [if_true, hw₂]
    · intro pid p zs hsee hz
      have h1 := hb pid p zs (by simpa [Sees] using hsee) (by simp [hz])
      have h2 := hb₂ pid p (zs ++ [x']) hsee (by simp [hz])
      simpa using h1.trans h2

theorem works_array (hI : I.Regular) {m : MemberInfo} {env : Env} {xs : List Val} (ha : m.isArray = true)
    (h : ∀ (i : Nat) (x : Val), xs[i]? = some x → Works I complete (.item m { env with index := i }) x) :
    Works I complete (.field m env) (.arr xs) := by
  intro hidx
  obtain ⟨es, xs', hw, hs, hb⟩ := works_elements 0 (by simpa using h)
  refine ⟨rfl, .beginArray xs m :: es ++ [.endArray xs m], .arr xs', ?_, rfl, ⟨by simp [Val.eraseExt, Val.eraseExts_eq, hs.1], fun hc => by rw [hs.2 hc]⟩, ?_⟩
  · rw [field]
    simp only [ha, if_true]
    exact default_array _ _ hw
  · intro id o o₁ hsee hset
    have := hb id o [] hsee rfl
    simpa using Feeds.array (fieldNamed hI hsee.1) ha this hset .nil

theorem argEnv_struct {id : Nat} (hk : (I id).kind = .struct) (ps : List Int) (k : Nat) (tag : Int) (fs : List Val) (m : MemberInfo)
    (idx : Option Nat) : argEnv (I id) (.obj ps k tag fs) m idx = .ok ⟨ps, fs.take m.prop, idx.getD 0⟩ := by
  simp [argEnv, hk]

theorem argEnv_other {id : Nat} (hk : (I id).kind ≠ .struct) (ps : List Int) (k : Nat) (tag : Int) (fs : List Val) (m : MemberInfo)
    (idx : Option Nat) : argEnv (I id) (.obj ps k tag fs) m idx = .ok ⟨ps, [], idx.getD 0⟩ := by
  unfold argEnv
  simp only

theorem setExtended_initial (hI : I.Regular) {id : Nat} {m : MemberInfo} (hm : m ∈ (I id).fields) :
    (I id).setExtended (I id).initialExtended m = (I id).initialExtended := by
  unfold CompoundInfo.setExtended
  split
  · rename_i i hi
    have := hI.extended id m i hm hi
    simp [this]
  · rfl

theorem works_fields (hI : I.Regular) {id : Nat} (hk : (I id).kind = .struct) {ps : List Int} {fs : List Val}
    (h : ∀ (i : Nat) (m : MemberInfo) (v : Val), (I id).fields[i]? = some m → fs[i]? = some v →
      Works I complete (.field m ⟨ps, fs.take i, 0⟩) v) (hlen : fs.length = (I id).fields.length) (ms pre : List MemberInfo)
    (hms : (I id).fields = pre ++ ms) (gs : List Val) (hg : gs.length = (I id).fields.length) (e : Nat)
    (he : complete → e = (I id).initialExtended) (hsame : SameList complete (fs.take pre.length) (gs.take pre.length)) :
    ∃ es gs' e', structFields (walkAttrs I defaultFilter fs) ms () = (.ok (), (), es) ∧
      Feeds I (.compound id (.obj ps e 0 gs)) es (.compound id (.obj ps e' 0 gs')) ∧ SameList complete fs gs' ∧
      (complete → e' = (I id).initialExtended) := by
  induction ms generalizing pre gs e with
  | nil =>
    have hp : pre.length = (I id).fields.length := by rw [hms]; simp
    rw [hp, List.take_of_length_le (by omega), List.take_of_length_le (by omega)] at hsame
    exact ⟨[], gs, e, rfl, .nil, hsame, he⟩
  | cons m ms ih =>
    have hm : (I id).fields[pre.length]? = some m := by rw [hms]; simp
    have hmem : m ∈ (I id).fields := by rw [hms]; simp
    have hprop := hI.numbered id _ m hm
    have hlt : pre.length < (I id).fields.length := by rw [hms]; simp
    have hv : fs[pre.length]? = some fs[pre.length] := by simp [hlen, hlt]
    obtain ⟨hget, es₁, v', hw, hst, hs, hb⟩ := h pre.length m _ hm hv rfl
    have hset : (I id).setAttr (.obj ps e 0 gs) m v' = .ok (.obj ps ((I id).setExtended e m) 0 (gs.set pre.length v')) := by
      unfold CompoundInfo.setAttr
      simp [hk, hprop, hst]
    have htake : (gs.set pre.length v').take (pre.length + 1) = gs.take pre.length ++ [v'] := by
      rw [List.take_add_one, List.getElem?_set_self (by omega), List.take_set_of_le (by omega)]
      rfl
    obtain ⟨es₂, gs', e', hw₂, hb₂, hs₂, he₂⟩ := ih (pre ++ [m]) (by simp [hms]) (gs.set pre.length v') (by simp [hg])
      ((I id).setExtended e m) (fun hc => by rw [he hc]; exact setExtended_initial hI hmem) (by
        simp only [List.length_append, List.length_cons, List.length_nil, Nat.zero_add]
        rw [htake, List.take_succ, hv]
        exact hsame.snoc hs)
    refine ⟨es₁ ++ es₂, gs', e', ?_, ?_, hs₂, he₂⟩
    · rw [structFields, Walk.bind_ok (a := true) (s' := ()) (es := es₁)]
      · simp only [if_true, hw₂]
      · rw [hprop, walkAttrs_get, hv]
        simp only [Option.map_some, walkAttr]
        rw [Walk.bind_ok (a := fs[pre.length]) (s' := ()) (es := [])]
        · simp [hw]
        · simp [Walk.lift, hget]
    · refine Feeds.trans (hb id _ _ ⟨hmem, fun idx => ⟨_, argEnv_struct hk _ _ _ _ _ _, ?_⟩⟩ hset) hb₂
      rw [hprop]
      simp [Env.eraseExt, hsame.1]

theorem works_struct (hI : I.Regular) {id : Nat} {ps : List Int} {k : Nat} {fs : List Val} (hk : (I id).kind = .struct)
    (hp : ps.length = (I id).numParams) (hlen : fs.length = (I id).fields.length) (he : complete → k = (I id).initialExtended)
    (h : ∀ (i : Nat) (m : MemberInfo) (v : Val), (I id).fields[i]? = some m → fs[i]? = some v →
      Works I complete (.field m ⟨ps, fs.take i, 0⟩) v) : Works I complete (.object id ps) (.obj ps k 0 fs) := by
  obtain ⟨es, gs', e', hw, hb, hs, he'⟩ := works_fields hI hk h hlen (I id).fields [] (by simp) (I id).defaults (hI.defaults id hk)
    (I id).initialExtended (fun _ => rfl) (by simpa using SameList.nil)
  refine ⟨⟨k, 0, fs, rfl⟩, .obj ps (I id).initialExtended 0 (I id).defaults, by simp [CompoundInfo.new, hp, hk], es, _, ?_, hb, ?_⟩
  · simp only [rootFields, fields, CompoundInfo.choiceTag, hk]
    rw [Walk.bind_ok (a := none) (s' := ()) (es := []) rfl]
    simp [hw]
  · exact ⟨by simp [Val.eraseExt, Val.eraseExts_eq, hs.1], fun hc => by rw [he hc, he' hc, hs.2 hc]⟩

theorem works_chosen (hI : I.Regular) {id : Nat} {ps : List Int} {tag tag₀ : Int} {i : Nat} {m : MemberInfo} {v : Val}
    (hk : (I id).kind ≠ .struct) (htag : (I id).choiceTag ps tag = .ok (some (i : Int))) (hm : (I id).fields[i]? = some m)
    (hnew : (I id).new ps = .ok (.obj ps 0 tag₀ [.none]))
    (hset : ∀ x, (I id).setAttr (.obj ps 0 tag₀ [.none]) m x = .ok (.obj ps 0 tag [m.stored x]))
    (h : Works I complete (.field m ⟨ps, [], 0⟩) v) : Works I complete (.object id ps) (.obj ps 0 tag [v]) := by
  obtain ⟨hget, es, v', hw, hst, hs, hb⟩ := h rfl
  refine ⟨⟨0, tag, [v], rfl⟩, _, hnew, es, .obj ps 0 tag [v'], ?_, ?_, ?_⟩
  · simp only [rootFields, fields, htag]
    rw [Walk.bind_ok (a := some (i : Int)) (s' := ()) (es := []) rfl]
    simp only [undefined_ne, if_false, fieldAt_natCast, hm]
    rw [Walk.bind_ok (a := true) (s' := ()) (es := es)]
    · simp [Walk.pure_apply]
    · simp only [walkAttrs, List.getElem?_cons_zero, walkAttr]
      rw [Walk.bind_ok (a := v) (s' := ()) (es := [])]
      · simp [hw]
      · simp [Walk.lift, hget]
  · refine hb id _ _ ⟨List.mem_of_getElem? hm, fun idx => ⟨_, argEnv_other hk _ _ _ _ _ _, rfl⟩⟩ ?_
    rw [hset, hst]
  · exact ⟨by simp [Val.eraseExt, Val.eraseExts_eq, hs.1], fun hc => by rw [hs.2 hc]⟩

theorem works_undefined {id : Nat} {ps : List Int} {tag : Int} {v : Val}
    (htag : (I id).choiceTag ps tag = .ok (some UNDEFINED_CHOICE)) (hnew : (I id).new ps = .ok (.obj ps 0 tag [.none]))
    (hv : v = .none ∨ v = .unset) (hc : complete → v = .none) : Works I complete (.object id ps) (.obj ps 0 tag [v]) := by
  refine ⟨⟨0, tag, _, rfl⟩, _, hnew, [], _, ?_, .nil, ?_, fun h => by rw [hc h]⟩
  swap
  · rcases hv with rfl | rfl <;> rfl
  simp only [rootFields, fields, htag]
  rw [Walk.bind_ok (a := some UNDEFINED_CHOICE) (s' := ()) (es := []) rfl]
  simp [Walk.pure_apply]

theorem fits_works (hI : I.Regular) {p : Place} {v : Val} (h : Fits I complete p v) : Works I complete p v := by
  induction h with
  | struct hk hp hlen he _ ih => exact works_struct hI hk hp hlen he ih
  | @union id ps i m v hk hp hm _ ih =>
    have hprop := hI.numbered id _ m hm
    exact works_chosen hI (tag₀ := UNDEFINED_CHOICE) (by simp [hk]) (by simp [CompoundInfo.choiceTag, hk]) hm (by simp [CompoundInfo.new, hp, hk]) (by
      intro x
      simp [CompoundInfo.setAttr, hk, hprop]) ih
  | undefined hk hp =>
    exact works_undefined (by simp [CompoundInfo.choiceTag, hk]) (by simp [CompoundInfo.new, hp, hk]) (.inl rfl) fun _ => rfl
  | @choice id ps tag i m v hk hp ht hm _ ih =>
    exact works_chosen hI (tag₀ := 0) (by simp [hk]) (by simp [CompoundInfo.choiceTag, hk, ht, ok_bind]) hm (by simp [CompoundInfo.new, hp, hk]) (by
      intro x
      simp [CompoundInfo.setAttr, hk]) ih
  | noChoice hk hp ht hv hc =>
    exact works_undefined (by simp [CompoundInfo.choiceTag, hk, ht, ok_bind]) (by simp [CompoundInfo.new, hp, hk]) hv hc
  | array ha _ ih => exact works_array hI ha ih
  | @noArray m env ha ho =>
    intro _
    obtain ⟨h1, h2⟩ := works_simple (complete := complete) hI (m := m) (env := env) (x := .none) (.inl rfl)
    refine ⟨by simp [MemberInfo.get, ho], [.visitValue .none m none], .none, ?_, by simp [MemberInfo.stored, ho], .refl _, ?_⟩
    · rw [field]
      · exact notObject_none m none
      · simp
      · simp
    · intro id o o₁ hsee hset
      exact .value (fieldNamed hI hsee.1) (.inl rfl) hset .nil
  | @single m env x ha _ ih =>
    intro hidx
    obtain ⟨hget, es, x', hw, hs, hb⟩ := ih.2 ha hidx
    refine ⟨hget, es, x', hw, ?_, hs, hb⟩
    cases x' <;> simp [MemberInfo.stored, ha]
  | none => exact works_simple hI (.inl rfl)
  | simple ht hx => exact works_simple hI (.inr ⟨ht, hx⟩)
  | compound ht ha _ ih => exact works_compound hI ht ha ih

end Rebuild
end Zserio
