import Verif.Lemmas.JsonParse
import Verif.Lemmas.JsonWrite
import Verif.Lemmas.JsonFuel
import Verif.Props.Walker
/-
C46: the text which `JsonWriter` produces is read by `JsonParser` to the same nested keys and values.
-/
set_option linter.unusedSimpArgs false
namespace Zserio
open Json

/-- An observer which writes down what it is told. -/
def Json.recorder : Observer (List JsonEvent) where
  beginObject := fun es => (.ok (), es ++ [.beginObject])
  endObject := fun es => (.ok (), es ++ [.endObject])
  beginArray := fun es => (.ok (), es ++ [.beginArray])
  endArray := fun es => (.ok (), es ++ [.endArray])
  visitKey k := fun es => (.ok (), es ++ [.key k])
  visitValue v := fun es => (.ok (), es ++ [.value v])

private theorem recorder_tell (e : JsonEvent) (es : List JsonEvent) : recorder.tell e es = (.ok (), es ++ [e]) := by
  cases e <;> rfl

private theorem recorder_tellAll (es : List JsonEvent) : ∀ es₀, recorder.tellAll es es₀ = (.ok (), es₀ ++ es) := by
  induction es with
  | nil => intro es₀; simp [Observer.tellAll]
  | cons e es ih =>
    intro es₀
    simp only [Observer.tellAll]
    rw [M.bind_ok (recorder_tell e es₀), ih]
    simp

/-- Every text of an array or object, with any white space and however it is read, is accepted by the parser.  The observer is
told the keys and values of the document in order; if it raises an exception, so does the parser. -/
theorem C46_parse (t : PyText) (ht : t.Lawful) {σ : Type} (ob : Observer σ) (st : σ) (d : Doc) (hd : ∀ v, d ≠ .value v)
    (before text after : PyStr) (h : JsonText t (.element d) text) (hb : Blank before) (ha : Blank after) (chunks : List PyStr)
    (hc : Chunks (before ++ text ++ after) chunks) :
    (Parser.parse t ob (Tokenizer.new chunks, st)).1 = (ob.tellAll d.events st).1.map (fun _ => true) ∧
      (Parser.parse t ob (Tokenizer.new chunks, st)).2.2 = (ob.tellAll d.events st).2 := by
  have hne : before ++ text ++ after ≠ [] := by simp [h.ne_nil]
  obtain ⟨tk', h1, h2⟩ := parse_stream ht ob h hb (tokenizes_blank (t := t) ha) (fun ⟨v, hv⟩ => absurd hv (hd v))
    (.inl ⟨token_new hc hne, rem_new hc⟩) st
  rw [h1]
  refine ⟨?_, rfl⟩
  rcases hr : (ob.tellAll d.events st).1 with e | u
  · rfl
  · rw [hr] at h2
    have := (h2 rfl).blank ha
    simp [Except.map, this]

/-- A plain value followed by white space is accepted as well.  (Without the white space it depends on how the text is read,
`C45_counterexample`.) -/
theorem C46_parse_value (t : PyText) (ht : t.Lawful) {σ : Type} (ob : Observer σ) (st : σ) (v : Val)
    (before text after : PyStr) (h : ValueText t v text) (hb : Blank before) (ha : Blank after) (hne : after ≠ []) (chunks : List PyStr)
    (hc : Chunks (before ++ text ++ after) chunks) :
    (Parser.parse t ob (Tokenizer.new chunks, st)).1 = (ob.visitValue v st).1.map (fun _ => true) ∧
      (Parser.parse t ob (Tokenizer.new chunks, st)).2.2 = (ob.visitValue v st).2 := by
  have hne' : before ++ text ++ after ≠ [] := by simp [hne]
  obtain ⟨tk', h1, h2⟩ := parse_stream ht ob (.value h) hb (tokenizes_blank (t := t) ha) (fun _ => ⟨ends_blank ha, hne⟩)
    (.inl ⟨token_new hc hne', rem_new hc⟩) st
  rw [h1]
  simp only [Doc.events, Observer.tellAll_one, Observer.tell] at h2 ⊢
  refine ⟨?_, trivial⟩
  rcases hr : (ob.visitValue v st).1 with e | u
  · rfl
  · rw [hr] at h2
    have := (h2 rfl).blank ha
    simp [Except.map, this]

/-- Two documents one after the other: the first call of `parse` returns `False`, the second one reads the second document. -/
theorem C46_parse_two (t : PyText) (ht : t.Lawful) {σ : Type} (ob : Observer σ) (st : σ) (d d' : Doc) (hd : ∀ v, d ≠ .value v)
    (hd' : ∀ v, d' ≠ .value v) (before text between text' after : PyStr) (h : JsonText t (.element d) text)
    (h' : JsonText t (.element d') text') (hb : Blank before) (hbw : Blank between) (ha : Blank after) (chunks : List PyStr)
    (hc : Chunks (before ++ text ++ (between ++ text' ++ after)) chunks) (st₁ : σ) (htold : ob.tellAll d.events st = (.ok (), st₁)) :
    ∃ tk, Parser.parse t ob (Tokenizer.new chunks, st) = (.ok false, (tk, st₁)) ∧
      (Parser.parse t ob (tk, st₁)).1 = (ob.tellAll d'.events st₁).1.map (fun _ => true) ∧
      (Parser.parse t ob (tk, st₁)).2.2 = (ob.tellAll d'.events st₁).2 := by
  have hne : before ++ text ++ (between ++ text' ++ after) ≠ [] := by simp [h.ne_nil]
  have htok : Tokenizes t (between ++ text' ++ after) ∧ ∀ tk, Loaded t (between ++ text' ++ after) tk → tk.token ∈ Parser.elementTokens := by
    cases h' with
    | value hv => exact absurd rfl (hd' _)
    | emptyArray => exact ⟨by simpa using (tokenizes_punct (t := t) hbw (c := 91) (tok := .beginArray) rfl), fun tk hl => by
        simp [Parser.elementTokens, ((show Loaded t (between ++ 91 :: _) tk by simpa using hl).punct hbw (tok := .beginArray) rfl).1]⟩
    | array => exact ⟨by simpa using (tokenizes_punct (t := t) hbw (c := 91) (tok := .beginArray) rfl), fun tk hl => by
        simp [Parser.elementTokens, ((show Loaded t (between ++ 91 :: _) tk by simpa using hl).punct hbw (tok := .beginArray) rfl).1]⟩
    | emptyObject => exact ⟨by simpa using (tokenizes_punct (t := t) hbw (c := 123) (tok := .beginObject) rfl), fun tk hl => by
        simp [Parser.elementTokens, ((show Loaded t (between ++ 123 :: _) tk by simpa using hl).punct hbw (tok := .beginObject) rfl).1]⟩
    | object => exact ⟨by simpa using (tokenizes_punct (t := t) hbw (c := 123) (tok := .beginObject) rfl), fun tk hl => by
        simp [Parser.elementTokens, ((show Loaded t (between ++ 123 :: _) tk by simpa using hl).punct hbw (tok := .beginObject) rfl).1]⟩
  obtain ⟨tk, h1, h2⟩ := parse_stream ht ob h hb htok.1 (fun ⟨v, hv⟩ => absurd hv (hd v))
    (.inl ⟨token_new hc hne, rem_new hc⟩) st
  rw [htold] at h1 h2
  have hl := h2 rfl
  have hnot : tk.token ≠ .endOfFile := by
    have := htok.2 tk hl
    simp only [Parser.elementTokens, List.mem_cons, List.not_mem_nil, or_false] at this
    rcases this with h | h | h <;> simp [h]
  refine ⟨tk, by rw [h1]; simp [Except.map, hnot], ?_⟩
  obtain ⟨tk', h3, h4⟩ := parse_stream ht ob h' hbw (tokenizes_blank (t := t) ha) (fun ⟨v, hv⟩ => absurd hv (hd' v)) (.inr hl) st₁
  rw [h3]
  refine ⟨?_, rfl⟩
  rcases hr : (ob.tellAll d'.events st₁).1 with e | u
  · rfl
  · rw [hr] at h4
    have := (h4 rfl).blank ha
    simp [Except.map, this]

/-- The bound on the recursion in the model of the parser has no effect: whatever the text is, however it is read and whatever
the observer does, the parser never runs into it (unless the observer itself raises `RecursionError`). -/
theorem C46_no_recursion_error (t : PyText) {σ : Type} (ob : Observer σ) (hq : ∀ e s, (ob.tell e s).1 ≠ .error .recursion)
    (text : PyStr) (chunks : List PyStr) (hc : Chunks text chunks) (st : σ) :
    (Parser.parse t ob (Tokenizer.new chunks, st)).1 ≠ .error .recursion :=
  Ok.parse ⟨hq⟩ _ st (.inr (rem_new hc).2)

/-- The writer produces the text of a JSON document for every well-nested sequence of events, provided that the visited values
belong to the types of their fields; the document has the keys and values of the events, in this order. -/
theorem C46_written (t : PyText) (ht : t.Lawful) (cfg : WriterConfig) (hcfg : cfg.Valid) (o : Val) (events : List Event)
    (L : List (Path × Node)) (h : Reports o events L) (hw : ∀ v m idx, Event.visitValue v m idx ∈ events → Writable m v) :
    ∃ (d : Doc) (w : JsonWriter), JsonWriter.observeAll t cfg events JsonWriter.new = (.ok (), w) ∧ w.level = 0 ∧
      JsonText t (.element d) w.out ∧ d.events = events.flatMap (jsonEvents cfg.stringFormat) := by
  obtain ⟨es, rfl, hn, _⟩ := h
  have h1 := writes_nested ht hcfg hn (fun v m idx h => hw v m idx (by simp [h])) true (0 + 1)
  obtain ⟨d, s, f', hp, hs, he⟩ := h1.bracket hcfg true
  refine ⟨d, ⟨f', 0, s⟩, ?_, rfl, hs, ?_⟩
  · have := hp []
    simp only [List.nil_append] at this
    rw [← this]
    simp only [List.cons_append, JsonWriter.observeAll, JsonWriter.observe, observeAll_append, bind_unit]
    rfl
  · rw [he]
    simp [jsonEvents]

/-- Put together: what the writer has written for the events is accepted by the parser, however it is read, and any observer is
told exactly the keys and values of the events. -/
theorem C46_round_trip (t : PyText) (ht : t.Lawful) (cfg : WriterConfig) (hcfg : cfg.Valid) (o : Val) (events : List Event)
    (L : List (Path × Node)) (h : Reports o events L) (hw : ∀ v m idx, Event.visitValue v m idx ∈ events → Writable m v) :
    ∃ w : JsonWriter, JsonWriter.observeAll t cfg events JsonWriter.new = (.ok (), w) ∧
      ∀ (chunks : List PyStr), Chunks w.out chunks → ∀ (σ : Type) (ob : Observer σ) (st : σ),
        (Parser.parse t ob (Tokenizer.new chunks, st)).1 =
          (ob.tellAll (events.flatMap (jsonEvents cfg.stringFormat)) st).1.map (fun _ => true) ∧
        (Parser.parse t ob (Tokenizer.new chunks, st)).2.2 = (ob.tellAll (events.flatMap (jsonEvents cfg.stringFormat)) st).2 := by
  obtain ⟨d, w, h1, _, h2, h3⟩ := C46_written t ht cfg hcfg o events L h hw
  refine ⟨w, h1, fun chunks hc σ ob st => ?_⟩
  rw [← h3]
  refine C46_parse t ht ob st d ?_ [] w.out [] h2 blank_nil blank_nil chunks (by simpa using hc)
  rintro v rfl
  obtain ⟨es, rfl, _⟩ := h
  simp only [Doc.events, List.cons_append, List.flatMap_cons, jsonEvents, List.cons.injEq] at h3
  exact absurd h3.1 (by simp)

/-- The same for an observer which writes down the events. -/
theorem C46_recorded (t : PyText) (ht : t.Lawful) (cfg : WriterConfig) (hcfg : cfg.Valid) (o : Val) (events : List Event)
    (L : List (Path × Node)) (h : Reports o events L) (hw : ∀ v m idx, Event.visitValue v m idx ∈ events → Writable m v) :
    ∃ w : JsonWriter, JsonWriter.observeAll t cfg events JsonWriter.new = (.ok (), w) ∧
      ∀ (chunks : List PyStr), Chunks w.out chunks →
        ∃ tk, Parser.parse t recorder (Tokenizer.new chunks, []) = (.ok true, (tk, events.flatMap (jsonEvents cfg.stringFormat))) := by
  obtain ⟨w, h1, h2⟩ := C46_round_trip t ht cfg hcfg o events L h hw
  refine ⟨w, h1, fun chunks hc => ?_⟩
  obtain ⟨h3, h4⟩ := h2 chunks hc _ recorder []
  rw [recorder_tellAll] at h3 h4
  simp only [Except.map, List.nil_append] at h3 h4
  rcases hx : Parser.parse t recorder (Tokenizer.new chunks, []) with ⟨r, tk, es⟩
  rw [hx] at h3 h4
  simp only at h3 h4
  subst h3 h4
  exact ⟨tk, rfl⟩

/-- The constructor produces such a configuration from its defaults, any number of blanks and any white space as the indent. -/
theorem C46_config (stringFormat : Bool) (indent : Indent) (h : ∀ s, indent = .str s → Blank s) :
    (WriterConfig.new none none stringFormat indent).Valid := by
  refine ⟨?_, ⟨[], [32], rfl, blank_nil, by intro c hc; simp at hc ⊢; omega⟩, ?_⟩
  · cases indent with
    | none => exact ⟨[], [32], rfl, blank_nil, by intro c hc; simp at hc ⊢; omega⟩
    | str s => exact ⟨[], [], rfl, blank_nil, blank_nil⟩
    | int n => exact ⟨[], [], rfl, blank_nil, blank_nil⟩
  · intro s hs
    cases indent with
    | none => simp [WriterConfig.new, Indent.text] at hs
    | str s' =>
      simp only [WriterConfig.new, Indent.text, Option.some.injEq] at hs
      subst hs
      exact h _ rfl
    | int n =>
      simp only [WriterConfig.new, Indent.text, Option.some.injEq] at hs
      subst hs
      intro c hc
      rw [List.eq_of_mem_replicate hc]
      simp

/-! ### Examples -/

namespace JsonDemo

/-- a test which values pass which can be written -/
def writable (m : MemberInfo) (v : Val) : Bool :=
  match m.type, v with
  | _, .none => true
  | .builtin .bitBuffer, .bitBuffer _ => true
  | .builtin .bytearray, .bytes _ => true
  | .builtin .int, .int _ => true
  | .builtin .str, .str _ => true
  | .enum _, .int _ => true
  | .bitmask _, .int _ => true
  | _, _ => false

theorem writable_of {m : MemberInfo} {v : Val} (h : writable m v = true) : Writable m v := by
  unfold writable at h
  unfold Writable
  split at h <;> simp_all

/-- the events of the walk of an object -/
def events : List Event := (Walker.walk WalkDemo.infos defaultFilter (some (.compound 0)) WalkDemo.root ()).2.2

theorem reports : ∃ L, Reports WalkDemo.root events L := by
  obtain ⟨es, L, h, hr, _⟩ := C40_walk WalkDemo.numbered WalkDemo.readable
  exact ⟨L, by rw [show events = es by unfold events; rw [h]]; exact hr⟩

theorem events_writable : ∀ v m idx, Event.visitValue v m idx ∈ events → Writable m v := by
  have h : events.all (fun e => match e with | .visitValue v m _ => writable m v | _ => true) = true := rfl
  intro v m idx hm
  exact writable_of (List.all_eq_true.mp h _ hm)

/-- the indent of `to_json_string` -/
def config : WriterConfig := WriterConfig.new none none true (.int 4)

end JsonDemo

/-- the hypotheses are met by the walk of an object with compounds, arrays of compounds and absent fields -/
example (t : PyText) (ht : t.Lawful) : ∃ w : JsonWriter, JsonWriter.observeAll t JsonDemo.config JsonDemo.events JsonWriter.new = (.ok (), w) ∧
    ∀ (chunks : List PyStr), Chunks w.out chunks →
      ∃ tk, Parser.parse t recorder (Tokenizer.new chunks, []) = (.ok true, (tk, JsonDemo.events.flatMap (jsonEvents true))) := by
  obtain ⟨L, h⟩ := JsonDemo.reports
  exact C46_recorded t ht JsonDemo.config (C46_config true (.int 4) (by simp)) WalkDemo.root JsonDemo.events L h JsonDemo.events_writable

/-- the keys of the example -/
example : (JsonDemo.events.flatMap (jsonEvents true)).filterMap (fun e => match e with | .key k => some k | _ => none) =
    [py! "first", py! "key", py! "text", py! "values", py! "items", py! "key", py! "text", py! "key", py! "text", py! "any", py! "item",
      py! "key", py! "text", py! "more", py! "empties"] := by decide +kernel

/-- a text with all kinds of white space, in two chunks -/
example (t : PyText) (ht : t.Lawful) : ∃ tk, Parser.parse t recorder (Tokenizer.new [py! " [ true\t,\r\n{\"a", py! "\" :null } ] \n"], []) =
    (.ok true, (tk, [.beginArray, .value (.bool true), .beginObject, .key (py! "a"), .value .none, .endObject, .endArray])) := by
  have hk : ValueText t (.str (py! "a")) (py! "\"a\"") := by
    exact string_text t (py! "a")
  have ht' : ValueText t (.bool true) (py! "true") := by
    obtain ⟨_, h1, h2⟩ := encode_text ht (v := .bool true) (by simp)
    cases h1
    exact h2
  have hn : ValueText t .none (py! "null") := by
    obtain ⟨_, h1, h2⟩ := encode_text ht (v := .none) (by simp)
    cases h1
    exact h2
  have h : JsonText t (.element (.array [.value (.bool true), .object [(py! "a", .value .none)]]))
      (py! "[ true\t,\r\n{\"a\" :null } ]") :=
    .array (ws := [32]) (ws' := [32]) (by intro c hc; simp at hc ⊢; omega)
      (.moreElements (ws := [9]) (ws' := [13, 10]) (.value (s := py! "true") ht')
        (by intro c hc; simp at hc ⊢; omega) (by intro c hc; simp at hc ⊢; omega)
        (.lastElement (.object (ws := []) (ws' := [32]) blank_nil
          (.lastMember (s := py! "\"a\"") (ws := [32]) (ws' := []) hk (by intro c hc; simp at hc ⊢; omega) blank_nil
            (.value (s := py! "null") hn))
          (by intro c hc; simp at hc ⊢; omega))))
      (by intro c hc; simp at hc ⊢; omega)
  obtain ⟨h1, h2⟩ := C46_parse t ht recorder [] _ (by simp) [32] _ [32, 10] h (by intro c hc; simp at hc ⊢; omega)
    (by intro c hc; simp at hc ⊢; omega) [py! " [ true\t,\r\n{\"a", py! "\" :null } ] \n"] ⟨rfl, by decide⟩
  rw [recorder_tellAll] at h1 h2
  rcases hx : Parser.parse t recorder (Tokenizer.new [py! " [ true\t,\r\n{\"a", py! "\" :null } ] \n"], []) with ⟨r, tk, es⟩
  rw [hx] at h1 h2
  simp only [Except.map] at h1 h2
  subst h1 h2
  exact ⟨tk, rfl⟩

/-- a text which is not JSON is rejected with an error of the parser -/
example : (Parser.parse PyText.simple recorder (Tokenizer.new [py! "[1 2] "], [])).1 = .error .json := by decide +kernel

end Zserio
