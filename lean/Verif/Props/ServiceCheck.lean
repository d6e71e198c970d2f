import Verif.Spec.ServiceCheck
import Verif.Lemmas.ClashCheckers
import Verif.Lemmas.SnakeCase
import Mathlib.Data.List.Nodup
/-
C107: which services and Pub/Sub types are accepted, and that the methods of the generated classes are connected as declared.
-/
set_option linter.unusedSimpArgs false
namespace Zserio.ServiceCheck

open Names (lowerSnake toLowerSnakeCase toLowerSnakeCase_eq)

/-! ### The checks -/

theorem checkEach_ok {α : Type} {check : α → Except Error Unit} : (l : List α) → (checkEach check l = .ok () ↔ ∀ a ∈ l, check a = .ok ())
  | [] => by simp [checkEach]
  | a :: l => by
    simp only [checkEach, List.mem_cons, forall_eq_or_imp, ← checkEach_ok l]
    cases check a with
    | error e => simp
    | ok u => cases u; simp

theorem checkUsedType_ok (t : BaseType) : checkUsedType t = .ok () ↔ Transportable t := by
  cases t with
  | bytes => simp [checkUsedType, Transportable]
  | other => simp [checkUsedType, Transportable]
  | compound n => by_cases h : n > 0 <;> simp [checkUsedType, Transportable, h] <;> omega
  | sqlTable n => by_cases h : n > 0 <;> simp [checkUsedType, Transportable, h]

theorem checkNames_ok (names : List PyStr) : checkNames names = .ok () ↔ Distinct names := by
  have h1 := Names.addSymbols_ok (g := Names.normalizeFirst) (e := .firstLetter) (l := names) (seen := [])
  have h2 := Names.addSymbols_ok (g := toLowerSnakeCase) (e := .symbolClash) (l := names) (seen := [])
  rw [show toLowerSnakeCase = lowerSnake from funext toLowerSnakeCase_eq] at h2
  simp only [List.not_mem_nil, not_false_eq_true, implies_true, and_true] at h1 h2
  unfold checkNames Distinct
  rw [show toLowerSnakeCase = lowerSnake from funext toLowerSnakeCase_eq, ← h1, ← h2]
  cases Names.addSymbols Names.normalizeFirst .firstLetter [] names with
  | error e => simp
  | ok u =>
    cases Names.addSymbols lowerSnake .symbolClash [] names with
    | error e => simp
    | ok v => simp

theorem checkUnderscore_ok (name : PyStr) : checkUnderscore name = .ok () ↔ (lowerSnake name).head? ≠ some (ch! '_') := by
  unfold checkUnderscore
  rw [toLowerSnakeCase_eq]
  split
  · next h => simp [h]
  · next h =>
    cases e : lowerSnake name with
    | nil => simp
    | cons c r =>
      simp only [List.head?_cons, ne_eq, Option.some.injEq, true_iff]
      rintro rfl
      exact h r e

/-- C107: a service is accepted exactly if all its requests and responses are `bytes` or compound types without parameters, and the names of its
methods are different and do not begin with an underscore. -/
theorem C107_service (methods : List Method) : checkService methods = .ok () ↔
    (∀ m ∈ methods, Transportable m.request ∧ Transportable m.response) ∧ Distinct (methods.map Method.name) ∧
      ∀ m ∈ methods, (lowerSnake m.name).head? ≠ some (ch! '_') := by
  have h1 : checkEach checkMethod methods = .ok () ↔ ∀ m ∈ methods, Transportable m.request ∧ Transportable m.response := by
    rw [checkEach_ok]
    refine forall₂_congr fun m _ => ?_
    rw [← checkUsedType_ok, ← checkUsedType_ok, checkMethod]
    cases checkUsedType m.response with
    | error e => simp
    | ok u => cases u; simp
  have h2 := checkNames_ok (methods.map Method.name)
  have h3 : checkEach (checkUnderscore ∘ Method.name) methods = .ok () ↔ ∀ m ∈ methods, (lowerSnake m.name).head? ≠ some (ch! '_') := by
    rw [checkEach_ok]
    exact forall₂_congr fun m _ => checkUnderscore_ok m.name
  rw [← h1, ← h2, ← h3, checkService]
  cases checkEach checkMethod methods with
  | error e => simp
  | ok u =>
    cases u
    cases checkNames (methods.map Method.name) with
    | error e => simp
    | ok v => cases v; simp

example : checkService [⟨py! "getUser", .compound 0, .bytes⟩, ⟨py! "getName", .bytes, .compound 0⟩] = .ok () ∧
    checkService [⟨py! "getUser", .compound 0, .compound 1⟩] = .error .parameterized := by decide +kernel

/-- C107: a Pub/Sub type is accepted exactly if all its messages are `bytes` or compound types without parameters, their names are different, and
the topics of messages which are not `bytes` are constant strings.  What is missing: that the topics of messages of type `bytes` are constant strings,
see `C107_topic_deviates`. -/
theorem C107_pubsub_partial (messages : List Message) : checkPubsub messages = .ok () ↔
    (∀ m ∈ messages, Transportable m.type ∧ (m.type ≠ .bytes → ∃ s, m.topic = .string s)) ∧ Distinct (messages.map Message.name) := by
  have h1 : checkEach checkMessage messages = .ok () ↔ ∀ m ∈ messages, Transportable m.type ∧ (m.type ≠ .bytes → ∃ s, m.topic = .string s) := by
    rw [checkEach_ok]
    refine forall₂_congr fun m _ => ?_
    obtain ⟨name, type, topic, p, s⟩ := m
    cases type with
    | bytes => simp [checkMessage, Transportable]
    | other => simp [checkMessage, Transportable]
    | sqlTable n => by_cases h : n > 0 <;> simp [checkMessage, Transportable, h]
    | compound n =>
      by_cases h : n > 0
      · simp [checkMessage, Transportable, h]; omega
      · have : n = 0 := by omega
        subst this
        cases topic <;> simp [checkMessage, Transportable, Topic.isString]
  have h2 := checkNames_ok (messages.map Message.name)
  rw [← h1, ← h2, checkPubsub]
  cases checkEach checkMessage messages with
  | error e => simp
  | ok u => simp

/-- C107: the topic of a message of type `bytes` need not be a constant string: it can be a number. -/
theorem C107_topic_deviates : checkPubsub [⟨py! "image", .bytes, .int 5, true, true⟩] = .ok () ∧
    checkPubsub [⟨py! "image", .compound 0, .int 5, true, true⟩] = .error .topic := by decide +kernel

example : checkPubsub [⟨py! "warnings", .compound 0, .string (py! "weather"), true, true⟩, ⟨py! "image", .bytes, .string (py! "x"), false, true⟩] =
    .ok () := by decide +kernel

/-! ### The generated Pub/Sub class -/

theorem lookup_unique {α : Type} {n : PyStr} {b : α} : (l : List (PyStr × α)) → (n, b) ∈ l → (∀ b', (n, b') ∈ l → b' = b) → l.lookup n = some b
  | [], h, _ => by simp at h
  | (m, c) :: l, h, hu => by
    by_cases e : n = m
    · subst e
      simp [List.lookup, hu c List.mem_cons_self]
    · have : (n == m) = false := by simpa using e
      rw [List.lookup, this]
      refine lookup_unique l ?_ fun b' hb => hu b' (List.mem_cons_of_mem _ hb)
      rcases List.mem_cons.1 h with h | h
      · simp only [Prod.mk.injEq] at h
        exact absurd h.1 e
      · exact h

theorem lookup_none {α : Type} {n : PyStr} : (l : List (PyStr × α)) → (∀ b, (n, b) ∉ l) → l.lookup n = none
  | [], _ => rfl
  | (m, c) :: l, h => by
    have e : n ≠ m := by rintro rfl; exact h c List.mem_cons_self
    have : (n == m) = false := by simpa using e
    rw [List.lookup, this]
    exact lookup_none l fun b hb => h b (List.mem_cons_of_mem _ hb)

theorem getAttr_unique {α : Type} {cls : List (PyStr × α)} {n : PyStr} {b : α} (h : (n, b) ∈ cls) (hu : ∀ b', (n, b') ∈ cls → b' = b) :
    getAttr cls n = some b :=
  lookup_unique _ (by simpa using h) (by simpa using hu)

theorem getAttr_none {α : Type} {cls : List (PyStr × α)} {n : PyStr} (h : ∀ b, (n, b) ∉ cls) : getAttr cls n = none :=
  lookup_none _ (by simpa using h)

theorem mem_methods (es : List Entry) (n : PyStr) (b : Body) : (n, b) ∈ pubsubMethods es ↔
    (∃ e ∈ es, e.isPublished = true ∧ n = publishName e.name ∧ b = if e.isBytes then .publishRaw e.topic else .publishObject e.topic) ∨
    (∃ e ∈ es, e.isSubscribed = true ∧ n = subscribeName e.name ∧
      b = if e.isBytes then .subscribeRaw e.topic else .subscribeObject e.topic (onRawName e.name)) ∨
    ((∃ e ∈ es, e.isSubscribed = true) ∧ n = py! "unsubscribe" ∧ b = .unsubscribe) ∨
    (∃ e ∈ es, e.isSubscribed = true ∧ e.isBytes = false ∧ n = onRawName e.name ∧ b = .onRaw e.payload) ∨
    ((∃ e ∈ es, e.isPublished = true ∧ e.isBytes = false) ∧ n = py! "_publish" ∧ b = .publish) := by
  have hm : ∀ e : Entry, (n, b) ∈ messageMethods e ↔
      (e.isPublished = true ∧ n = publishName e.name ∧ b = if e.isBytes then .publishRaw e.topic else .publishObject e.topic) ∨
      (e.isSubscribed = true ∧ n = subscribeName e.name ∧
        b = if e.isBytes then .subscribeRaw e.topic else .subscribeObject e.topic (onRawName e.name)) := by
    intro e
    unfold messageMethods
    cases e.isPublished <;> cases e.isSubscribed <;> simp
  have ho : ∀ e : Entry, (n, b) ∈ onRawMethods e ↔ e.isSubscribed = true ∧ e.isBytes = false ∧ n = onRawName e.name ∧ b = .onRaw e.payload := by
    intro e
    unfold onRawMethods
    cases e.isSubscribed <;> cases e.isBytes <;> simp
  have hs : hasSubscribing es = true ↔ ∃ e ∈ es, e.isSubscribed = true := by simp [hasSubscribing]
  have hp : (hasPublishing es && hasPublishedObject es) = true ↔ ∃ e ∈ es, e.isPublished = true ∧ e.isBytes = false := by
    simp only [hasPublishing, hasPublishedObject, Bool.and_eq_true, List.any_eq_true, Bool.not_eq_true']
    constructor
    · rintro ⟨_, e, he, h⟩; exact ⟨e, he, h⟩
    · rintro ⟨e, he, h⟩; exact ⟨⟨e, he, h.1⟩, e, he, h⟩
  simp only [pubsubMethods, List.mem_append, List.mem_flatMap, hm]
  constructor
  · rintro ((⟨e, he, h | h⟩ | h) | h)
    · exact .inl ⟨e, he, h⟩
    · exact .inr (.inl ⟨e, he, h⟩)
    · by_cases c : hasSubscribing es = true
      · rw [if_pos c] at h
        rcases List.mem_cons.1 h with h | h
        · simp only [Prod.mk.injEq] at h
          exact .inr (.inr (.inl ⟨hs.1 c, h⟩))
        · obtain ⟨e, he, h⟩ := List.mem_flatMap.1 h
          exact .inr (.inr (.inr (.inl ⟨e, he, (ho e).1 h⟩)))
      · rw [if_neg c] at h
        simp at h
    · by_cases c : (hasPublishing es && hasPublishedObject es) = true
      · rw [if_pos c] at h
        simp only [List.mem_singleton, Prod.mk.injEq] at h
        exact .inr (.inr (.inr (.inr ⟨hp.1 c, h⟩)))
      · rw [if_neg c] at h
        simp at h
  · rintro (⟨e, he, h⟩ | ⟨e, he, h⟩ | ⟨c, rfl, rfl⟩ | ⟨e, he, h⟩ | ⟨c, rfl, rfl⟩)
    · exact .inl (.inl ⟨e, he, .inl h⟩)
    · exact .inl (.inl ⟨e, he, .inr h⟩)
    · refine .inl (.inr ?_)
      rw [if_pos (hs.2 c)]
      exact List.mem_cons_self
    · refine .inl (.inr ?_)
      rw [if_pos (hs.2 ⟨e, he, h.1⟩)]
      exact List.mem_cons_of_mem _ (List.mem_flatMap.2 ⟨e, he, (ho e).2 h⟩)
    · refine .inr ?_
      rw [if_pos (hp.2 c)]
      simp

theorem entry_unique {es : List Entry} (hn : (es.map fun e => lowerSnake e.name).Nodup) {e e' : Entry} (he : e ∈ es) (he' : e' ∈ es)
    (h : lowerSnake e.name = lowerSnake e'.name) : e = e' :=
  List.inj_on_of_nodup_map hn he he' h

theorem publishName_inj {a b : PyStr} (h : publishName a = publishName b) : lowerSnake a = lowerSnake b := by
  simpa [publishName, toLowerSnakeCase_eq] using h
theorem subscribeName_inj {a b : PyStr} (h : subscribeName a = subscribeName b) : lowerSnake a = lowerSnake b := by
  simpa [subscribeName, toLowerSnakeCase_eq] using h
theorem onRawName_inj {a b : PyStr} (h : onRawName a = onRawName b) : lowerSnake a = lowerSnake b := by
  simpa [onRawName, toLowerSnakeCase_eq] using h

theorem attr_publish {es : List Entry} (hn : (es.map fun e => lowerSnake e.name).Nodup) {e : Entry} (he : e ∈ es) :
    getAttr (pubsubMethods es) (publishName e.name) =
      if e.isPublished then some (if e.isBytes then .publishRaw e.topic else .publishObject e.topic) else none := by
  have key : ∀ b, (publishName e.name, b) ∈ pubsubMethods es → e.isPublished = true ∧ b = if e.isBytes then .publishRaw e.topic else .publishObject e.topic := by
    intro b hb
    rcases (mem_methods es _ b).1 hb with ⟨e', he', h1, h2, h3⟩ | ⟨e', _, _, h, _⟩ | ⟨_, h, _⟩ | ⟨e', _, _, _, h, _⟩ | ⟨_, h, _⟩
    · have := entry_unique hn he he' (publishName_inj h2)
      subst this
      exact ⟨h1, h3⟩
    · simp [publishName, subscribeName] at h
    · simp [publishName] at h
    · simp [publishName, onRawName] at h
    · simp [publishName] at h
  by_cases hp : e.isPublished = true
  · rw [if_pos hp]
    exact getAttr_unique ((mem_methods es _ _).2 (.inl ⟨e, he, hp, rfl, rfl⟩)) fun b' hb => (key b' hb).2
  · rw [if_neg hp]
    exact getAttr_none fun b hb => hp (key b hb).1

theorem attr_subscribe {es : List Entry} (hn : (es.map fun e => lowerSnake e.name).Nodup) {e : Entry} (he : e ∈ es) :
    getAttr (pubsubMethods es) (subscribeName e.name) =
      if e.isSubscribed then some (if e.isBytes then .subscribeRaw e.topic else .subscribeObject e.topic (onRawName e.name)) else none := by
  have key : ∀ b, (subscribeName e.name, b) ∈ pubsubMethods es →
      e.isSubscribed = true ∧ b = if e.isBytes then .subscribeRaw e.topic else .subscribeObject e.topic (onRawName e.name) := by
    intro b hb
    rcases (mem_methods es _ b).1 hb with ⟨e', _, _, h, _⟩ | ⟨e', he', h1, h2, h3⟩ | ⟨_, h, _⟩ | ⟨e', _, _, _, h, _⟩ | ⟨_, h, _⟩
    · simp [publishName, subscribeName] at h
    · have := entry_unique hn he he' (subscribeName_inj h2)
      subst this
      exact ⟨h1, h3⟩
    · simp [subscribeName] at h
    · simp [subscribeName, onRawName] at h
    · simp [subscribeName] at h
  by_cases hp : e.isSubscribed = true
  · rw [if_pos hp]
    exact getAttr_unique ((mem_methods es _ _).2 (.inr (.inl ⟨e, he, hp, rfl, rfl⟩))) fun b' hb => (key b' hb).2
  · rw [if_neg hp]
    exact getAttr_none fun b hb => hp (key b hb).1

theorem attr_onRaw {es : List Entry} (hn : (es.map fun e => lowerSnake e.name).Nodup) {e : Entry} (he : e ∈ es) (hs : e.isSubscribed = true)
    (hb : e.isBytes = false) : getAttr (pubsubMethods es) (onRawName e.name) = some (.onRaw e.payload) := by
  refine getAttr_unique ((mem_methods es _ _).2 (.inr (.inr (.inr (.inl ⟨e, he, hs, hb, rfl, rfl⟩))))) fun b' hb' => ?_
  rcases (mem_methods es _ b').1 hb' with ⟨e', _, _, h, _⟩ | ⟨e', _, _, h, _⟩ | ⟨_, h, _⟩ | ⟨e', he', _, _, h, h'⟩ | ⟨_, h, _⟩
  · simp [publishName, onRawName] at h
  · simp [subscribeName, onRawName] at h
  · simp [onRawName] at h
  · have := entry_unique hn he he' (onRawName_inj h)
    subst this
    exact h'
  · simp [onRawName] at h

theorem attr_helper {es : List Entry} {e : Entry} (he : e ∈ es) (hp : e.isPublished = true) (hb : e.isBytes = false) :
    getAttr (pubsubMethods es) (py! "_publish") = some .publish := by
  refine getAttr_unique ((mem_methods es _ _).2 (.inr (.inr (.inr (.inr ⟨⟨e, he, hp, hb⟩, rfl, rfl⟩))))) fun b' hb' => ?_
  rcases (mem_methods es _ b').1 hb' with ⟨e', _, _, h, _⟩ | ⟨e', _, _, h, _⟩ | ⟨_, h, _⟩ | ⟨e', _, _, _, h, _⟩ | ⟨_, _, h⟩
  · simp [publishName] at h
  · simp [subscribeName] at h
  · simp at h
  · simp [onRawName] at h
  · exact h

variable {σ γ : Type}

/-- C107: the class generated for a Pub/Sub type has a method `publish_...` for a message exactly if the message is published; it does what is
declared for this message: no method which it calls is missing, and it publishes on the topic of the message, in the form of its type. -/
theorem C107_publish (es : List Entry) (hn : (es.map fun e => lowerSnake e.name).Nodup) (e : Entry) (he : e ∈ es)
    (publish : PyStr → List UInt8 → γ → M σ Unit) (k : Codec) (hk : ∀ k', e.payload = .object k' → k' = k) (message : Val) (context : γ) :
    callPublish (pubsubMethods es) (py! "publish_" ++ lowerSnake e.name) publish k message context =
      if e.isPublished then some (Pubsub.publishMessage e.payload e.topic publish message context) else none := by
  rw [show py! "publish_" ++ lowerSnake e.name = publishName e.name by rw [publishName, toLowerSnakeCase_eq]]
  unfold callPublish
  rw [attr_publish hn he]
  by_cases hp : e.isPublished = true
  · rw [if_pos hp, if_pos hp]
    cases hb : e.payload with
    | bytes =>
      have : e.isBytes = true := by simp [Entry.isBytes, hb]
      rw [if_pos this]
      cases message <;> rfl
    | object k' =>
      have hb' : e.isBytes = false := by simp [Entry.isBytes, hb]
      have := hk k' hb
      subst this
      simp only [hb', Bool.false_eq_true, if_false, attr_helper he hp hb']
      cases message <;> rfl
  · rw [if_neg hp, if_neg hp]

/-- C107: the same for subscriptions: there is a method `subscribe_...` exactly if the message is subscribed, and its callback gets the messages read
by the class of its type. -/
theorem C107_subscribe (es : List Entry) (hn : (es.map fun e => lowerSnake e.name).Nodup) (e : Entry) (he : e ∈ es)
    (subscribe : PyStr → (PyStr → List UInt8 → M σ Unit) → γ → M σ Int) (callback : PyStr → Val → M σ Unit) (context : γ) :
    callSubscribe (pubsubMethods es) (py! "subscribe_" ++ lowerSnake e.name) subscribe callback context =
      if e.isSubscribed then some (Pubsub.subscribeMessage e.payload e.topic subscribe callback context) else none := by
  rw [show py! "subscribe_" ++ lowerSnake e.name = subscribeName e.name by rw [subscribeName, toLowerSnakeCase_eq]]
  unfold callSubscribe
  rw [attr_subscribe hn he]
  by_cases hp : e.isSubscribed = true
  · rw [if_pos hp, if_pos hp]
    cases hb : e.payload with
    | bytes =>
      have : e.isBytes = true := by simp [Entry.isBytes, hb]
      rw [if_pos this]
      rfl
    | object k' =>
      have hb' : e.isBytes = false := by simp [Entry.isBytes, hb]
      simp only [hb', Bool.false_eq_true, if_false, attr_onRaw hn he hp hb', hb]
      rfl
  · rw [if_neg hp, if_neg hp]

/-- C107: there is a method `unsubscribe` exactly if something can be subscribed. -/
theorem C107_unsubscribe (es : List Entry) : canUnsubscribe (pubsubMethods es) = true ↔ ∃ e ∈ es, e.isSubscribed = true := by
  have key : ∀ b, (py! "unsubscribe", b) ∈ pubsubMethods es → (∃ e ∈ es, e.isSubscribed = true) ∧ b = .unsubscribe := by
    intro b hb
    rcases (mem_methods es _ b).1 hb with ⟨e', _, _, h, _⟩ | ⟨e', _, _, h, _⟩ | ⟨h, _, h'⟩ | ⟨e', _, _, _, h, _⟩ | ⟨_, h, _⟩
    · simp [publishName] at h
    · simp [subscribeName] at h
    · exact ⟨h, h'⟩
    · simp [onRawName] at h
    · simp at h
  constructor
  · intro h
    by_contra hn
    rw [canUnsubscribe, getAttr_none fun b hb => hn (key b hb).1] at h
    simp at h
  · intro h
    rw [canUnsubscribe, getAttr_unique ((mem_methods es _ _).2 (.inr (.inr (.inl ⟨h, rfl, rfl⟩)))) fun b hb => (key b hb).2]

example : ([⟨py! "warnings", .bytes, py! "w", true, false⟩, ⟨py! "image", .object (Codec.mk (fun _ c _ => .ok c) (fun _ c n _ => .ok (n, c))
    (fun _ c n v => .ok (n, v, c)) (fun _ c _ w => (.ok c, w)) (fun _ c _ r => (.ok (.none, c), r))), py! "i", true, true⟩].map
      fun e : Entry => lowerSnake e.name).Nodup := by decide +kernel

/-! ### The generated service -/

/-- C107: the generated service calls, for the name of a method, the implementation of this method with its request and response, and knows no other
names: it is the service of C53. -/
theorem C107_dispatch (methods : List MethodDef) (hn : (methods.map fun m => lowerSnake m.name).Nodup) (name : PyStr) :
    dispatch (methods.map MethodDef.name) name = ((Service.methodMap methods).lookup name).map fun i => (i, i) := by
  have hinj : ∀ (i j : Nat) (a b : PyStr), (methods.map MethodDef.name)[i]? = some a → (methods.map MethodDef.name)[j]? = some b →
      lowerSnake a = lowerSnake b → i = j := by
    intro i j a b hi hj h
    rw [List.getElem?_map, Option.map_eq_some_iff] at hi hj
    obtain ⟨m, hm, rfl⟩ := hi
    obtain ⟨m', hm', rfl⟩ := hj
    obtain ⟨li, ei⟩ := List.getElem?_eq_some_iff.1 hm
    obtain ⟨lj, ej⟩ := List.getElem?_eq_some_iff.1 hm'
    refine (List.Nodup.getElem_inj_iff hn (hi := by simpa using li) (hj := by simpa using lj)).1 ?_
    simp [ei, ej, h]
  generalize hl : methods.map MethodDef.name = names at hinj ⊢
  have hmap : Service.methodMap methods = (names.mapIdx fun i n => (n, i)).reverse := by
    rw [Service.methodMap, ← hl]
    congr 1
    apply List.ext_getElem?
    intro i
    simp [Function.comp_def]
  rw [hmap]
  have mem : ∀ (n : PyStr) b, (n, b) ∈ serviceMethods names ↔ ∃ i a, names[i]? = some a ∧
      ((n = implName a ∧ b = .impl i) ∨ (n = methodName a ∧ b = .method i (implName a))) := by
    intro n b
    simp only [serviceMethods, List.mem_append]
    simp only [List.mem_iff_getElem?, List.getElem?_mapIdx, Option.map_eq_some_iff, Prod.mk.injEq]
    constructor
    · rintro (⟨i, a, h, rfl, rfl⟩ | ⟨i, a, h, rfl, rfl⟩)
      · exact ⟨i, a, h, .inl ⟨rfl, rfl⟩⟩
      · exact ⟨i, a, h, .inr ⟨rfl, rfl⟩⟩
    · rintro ⟨i, a, h, ⟨rfl, rfl⟩ | ⟨rfl, rfl⟩⟩
      · exact .inl ⟨i, a, h, rfl, rfl⟩
      · exact .inr ⟨i, a, h, rfl, rfl⟩
  have ne : ∀ a b : PyStr, implName a ≠ methodName b := by
    intro a b h
    have := congrArg (List.head? ∘ List.reverse) h
    simp [implName, methodName] at this
  have impl_inj : ∀ a b : PyStr, implName a = implName b → lowerSnake a = lowerSnake b := by
    intro a b h
    simpa [implName, toLowerSnakeCase_eq] using h
  have method_inj : ∀ a b : PyStr, methodName a = methodName b → lowerSnake a = lowerSnake b := by
    intro a b h
    simpa [methodName, toLowerSnakeCase_eq] using h
  by_cases hm : ∃ i : Nat, names[i]? = some name
  · obtain ⟨i, hi⟩ := hm
    have l1 : (names.mapIdx fun i n => (n, i)).reverse.lookup name = some i := by
      refine lookup_unique _ ?_ ?_
      · rw [List.mem_reverse]
        simp only [List.mem_iff_getElem?, List.getElem?_mapIdx]
        exact ⟨i, by simp [hi]⟩
      · intro j hj
        rw [List.mem_reverse] at hj
        simp only [List.mem_iff_getElem?, List.getElem?_mapIdx, Option.map_eq_some_iff, Prod.mk.injEq] at hj
        obtain ⟨j', a, ha, rfl, rfl⟩ := hj
        exact hinj _ _ _ _ ha hi rfl
    have l2 : getAttr (names.map fun n => (n, methodName n)) name = some (methodName name) := by
      refine getAttr_unique ?_ ?_
      · exact List.mem_map.2 ⟨name, List.mem_of_getElem? hi, rfl⟩
      · intro b hb
        obtain ⟨n, _, e⟩ := List.mem_map.1 hb
        simp only [Prod.mk.injEq] at e
        rw [← e.2, e.1]
    have l3 : getAttr (serviceMethods names) (methodName name) = some (.method i (implName name)) := by
      refine getAttr_unique ((mem _ _).2 ⟨i, name, hi, .inr ⟨rfl, rfl⟩⟩) fun b hb => ?_
      obtain ⟨j, a, hj, ⟨h, _⟩ | ⟨h, rfl⟩⟩ := (mem _ _).1 hb
      · exact absurd h.symm (ne _ _)
      · have := hinj _ _ _ _ hi hj (method_inj _ _ h)
        subst this
        rw [hi] at hj
        injection hj with hj
        rw [hj]
    have l4 : getAttr (serviceMethods names) (implName name) = some (.impl i) := by
      refine getAttr_unique ((mem _ _).2 ⟨i, name, hi, .inl ⟨rfl, rfl⟩⟩) fun b hb => ?_
      obtain ⟨j, a, hj, ⟨h, rfl⟩ | ⟨h, _⟩⟩ := (mem _ _).1 hb
      · rw [hinj _ _ _ _ hi hj (impl_inj _ _ h)]
      · exact absurd h (ne _ _)
    rw [dispatch, l2, l1]
    simp only [l3, l4, Option.map_some]
  · have l1 : (names.mapIdx fun i n => (n, i)).reverse.lookup name = none := by
      refine lookup_none _ fun j hj => hm ?_
      rw [List.mem_reverse] at hj
      simp only [List.mem_iff_getElem?, List.getElem?_mapIdx, Option.map_eq_some_iff, Prod.mk.injEq] at hj
      obtain ⟨j', a, ha, rfl, rfl⟩ := hj
      exact ⟨_, ha⟩
    have l2 : getAttr (names.map fun n => (n, methodName n)) name = none := by
      refine getAttr_none fun b hb => hm ?_
      obtain ⟨n, h, e⟩ := List.mem_map.1 hb
      simp only [Prod.mk.injEq] at e
      obtain ⟨i, hi⟩ := List.mem_iff_getElem?.1 h
      exact ⟨i, e.1 ▸ hi⟩
    rw [dispatch, l2, l1]
    rfl

example : dispatch [py! "getUser", py! "getName"] (py! "getName") = some (1, 1) ∧ dispatch [py! "getUser", py! "getName"] (py! "get_name") = none ∧
    ([py! "getUser", py! "getName"].map lowerSnake).Nodup := by decide +kernel

end Zserio.ServiceCheck
