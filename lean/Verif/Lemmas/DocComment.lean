import Verif.Spec.DocComment
set_option linter.unusedSimpArgs false
/-
Lemmas on documentation comments in generated code.
-/
namespace Zserio.Doc
open Expression

instance (s : PyStr) : Decidable (Plain s) := inferInstanceAs (Decidable (34 ∉ s ∧ 92 ∉ s))

/-- the number of double quotes at the end, if there were never three in a row -/
def run : Nat → PyStr → Option Nat
  | k, [] => some k
  | k, c :: s => if c = 34 then (if k + 1 = 3 then none else run (k + 1) s) else run 0 s

theorem run_append (s t : PyStr) : ∀ k, run k (s ++ t) = (run k s).bind fun k => run k t := by
  induction s with
  | nil => intro k; rfl
  | cons c s ih =>
    intro k
    simp only [List.cons_append, run]
    split
    · split
      · rfl
      · exact ih _
    · exact ih _

theorem run_le {s : PyStr} : ∀ {k j}, k ≤ 2 → run k s = some j → j ≤ 2 := by
  induction s with
  | nil => intro k j hk h; cases h; exact hk
  | cons c s ih =>
    intro k j hk h
    simp only [run] at h
    split at h
    · split at h
      · cases h
      · exact ih (by omega) h
    · exact ih (by omega) h

theorem run_none {s : PyStr} : ∀ {k}, k ≤ 2 → run k s = none → quotes <:+: List.replicate k 34 ++ s := by
  induction s with
  | nil => intro k hk h; cases h
  | cons c s ih =>
    intro k hk h
    simp only [run] at h
    split at h
    · rename_i hc
      subst hc
      split at h
      · have : k = 2 := by omega
        subst this
        exact ⟨[], s, rfl⟩
      · have := ih (by omega) h
        rwa [List.replicate_succ', List.append_assoc] at this
    · have := ih (by omega) h
      simp only [List.replicate_zero, List.nil_append] at this
      obtain ⟨a, b, rfl⟩ := this
      exact ⟨List.replicate k 34 ++ c :: a, b, by simp⟩

theorem run_quotes {k : Nat} (hk : k ≤ 2) : run k quotes = none := by
  have : k = 0 ∨ k = 1 ∨ k = 2 := by omega
  rcases this with rfl | rfl | rfl <;> rfl

theorem run_iff {s : PyStr} : run 0 s ≠ none ↔ ¬ HasTripleQuote s := by
  constructor
  · rintro h ⟨a, b, rfl⟩
    apply h
    rw [run_append, run_append]
    cases ha : run 0 a with
    | none => rfl
    | some k =>
      show (run k quotes).bind _ = none
      rw [run_quotes (run_le (by omega) ha)]
      rfl
  · intro h hn
    have := run_none (by omega) hn
    exact h (by simpa [HasTripleQuote, quotes] using this)

theorem run_plain {s : PyStr} (h : 34 ∉ s) : ∀ k, run k s = if s = [] then some k else some 0 := by
  induction s with
  | nil => intro k; rfl
  | cons c s ih =>
    intro k
    have hc : c ≠ 34 := fun hc => h (by simp [hc])
    simp only [run, if_neg hc, ih (fun hm => h (by simp [hm])) 0]
    simp

/-- the text consists of texts of comments with text of templates between them -/
structure Made (s : PyStr) (ts : List PyStr) : Prop where
  triple : HasTripleQuote s → ∃ t ∈ ts, HasTripleQuote t
  backslash : HasBackslash s → ∃ t ∈ ts, HasBackslash t
  all : ∀ t ∈ ts, t <:+: s

theorem Made.text (t : PyStr) : Made t [t] :=
  ⟨fun h => ⟨t, by simp, h⟩, fun h => ⟨t, by simp, h⟩, fun u hu => by
    simp only [List.mem_singleton] at hu
    exact hu ▸ List.infix_rfl⟩

theorem Made.plain {s : PyStr} (h : Plain s) : Made s [] := by
  refine ⟨fun ht => ?_, fun hb => absurd hb h.2, by simp⟩
  obtain ⟨a, b, rfl⟩ := ht
  exact absurd (by simp) h.1

theorem Made.nil : Made [] [] := Made.plain ⟨by simp, by simp⟩

/-- two parts with text of a template between them -/
theorem Made.sep {s m u : PyStr} {ts us : List PyStr} (hs : Made s ts) (hm : Plain m) (hne : m ≠ []) (hu : Made u us) :
    Made (s ++ m ++ u) (ts ++ us) := by
  refine ⟨fun h => ?_, fun h => ?_, fun t ht => ?_⟩
  · by_contra hc
    push Not at hc
    have h1 : run 0 s ≠ none := run_iff.2 fun hx => by
      obtain ⟨t, ht, hx⟩ := hs.triple hx
      exact hc t (by simp [ht]) hx
    have h2 : run 0 u ≠ none := run_iff.2 fun hx => by
      obtain ⟨t, ht, hx⟩ := hu.triple hx
      exact hc t (by simp [ht]) hx
    refine run_iff.1 ?_ h
    rw [run_append, run_append]
    cases hr : run 0 s with
    | none => exact absurd hr h1
    | some k => simpa [run_plain hm.1, hne] using h2
  · simp only [HasBackslash, List.mem_append] at h
    rcases h with (h | h) | h
    · obtain ⟨t, ht, hx⟩ := hs.backslash h
      exact ⟨t, by simp [ht], hx⟩
    · exact absurd h hm.2
    · obtain ⟨t, ht, hx⟩ := hu.backslash h
      exact ⟨t, by simp [ht], hx⟩
  · rcases List.mem_append.1 ht with ht | ht
    · obtain ⟨a, b, rfl⟩ := hs.all t ht
      exact ⟨a, b ++ m ++ u, by simp⟩
    · obtain ⟨a, b, rfl⟩ := hu.all t ht
      exact ⟨s ++ m ++ a, b, by simp⟩

theorem Made.before {m u : PyStr} {us : List PyStr} (hm : Plain m) (hu : Made u us) : Made (m ++ u) us := by
  by_cases hne : m = []
  · subst hne
    exact hu
  · have := Made.sep (s := []) (ts := []) Made.nil hm hne hu
    simpa using this

theorem Made.after {s m : PyStr} {ts : List PyStr} (hs : Made s ts) (hm : Plain m) : Made (s ++ m) ts := by
  by_cases hne : m = []
  · subst hne
    simpa using hs
  · have := hs.sep (u := []) (us := []) hm hne Made.nil
    simpa using this

/-- a part which ends with text of a template -/
def Ended (s : PyStr) (ts : List PyStr) : Prop := (s = [] ∧ ts = []) ∨ ∃ r m, s = r ++ m ∧ Plain m ∧ m ≠ [] ∧ Made r ts

theorem Ended.append {s u : PyStr} {ts us : List PyStr} (hs : Ended s ts) (hu : Made u us) : Made (s ++ u) (ts ++ us) := by
  rcases hs with ⟨rfl, rfl⟩ | ⟨r, m, rfl, hm, hne, hr⟩
  · exact hu
  · exact hr.sep hm hne hu

theorem Ended.made {s : PyStr} {ts : List PyStr} (hs : Ended s ts) : Made s ts := by
  have := hs.append Made.nil
  simpa using this

theorem Ended.trans {s u : PyStr} {ts us : List PyStr} (hs : Ended s ts) (hu : Ended u us) : Ended (s ++ u) (ts ++ us) := by
  rcases hu with ⟨rfl, rfl⟩ | ⟨r, m, rfl, hm, hne, hr⟩
  · simpa using hs
  · exact .inr ⟨s ++ r, m, by simp, hm, hne, hs.append hr⟩

theorem Ended.flatMap {α : Type} {f : α → PyStr} {g : α → List PyStr} (h : ∀ x, Ended (f x) (g x)) :
    ∀ xs : List α, Ended (xs.flatMap f) (xs.flatMap g)
  | [] => .inl ⟨rfl, rfl⟩
  | x :: xs => by
    simp only [List.flatMap_cons]
    exact (h x).trans (flatMap h xs)

theorem plain_pad (n : Nat) : Plain (pad n) := by
  constructor <;> simp [pad, List.mem_replicate]

theorem plain_newline : Plain newline := by
  constructor <;> simp [newline]

theorem Plain.append {s t : PyStr} (hs : Plain s) (ht : Plain t) : Plain (s ++ t) := by
  constructor
  · simp [hs.1, ht.1]
  · simp [hs.2, ht.2]

theorem ended_newline {s : PyStr} {ts : List PyStr} (h : Made s ts) : Ended (s ++ newline) ts :=
  .inr ⟨s, newline, rfl, plain_newline, by simp [newline], h⟩

theorem ended_plain {s : PyStr} (h : Plain s) : Ended s [] := by
  by_cases hs : s = []
  · exact .inl ⟨hs, rfl⟩
  · exact .inr ⟨[], s, rfl, h, hs, Made.nil⟩

theorem seeText_made (label link : PyStr) (cross : Bool) : Made (seeText label link cross) [label, link] := by
  have h1 : Plain (py! ":" ++ (if cross then py! "ref" else py! "obj") ++ py! ":`") := by cases cross <;> decide
  have h := ((Made.before h1 (Made.text label)).sep (m := py! " <") (by decide) (by decide) (Made.text link)).after
    (m := py! ">`") (by decide)
  simpa [seeText] using h

theorem element_made (e : LineElement) : Made e.out e.texts := by
  cases e with
  | text s => exact Made.text s
  | see label link cross => exact seeText_made label link cross

theorem lineOut_made : ∀ (es : Line), Made (lineOut true es) (es.flatMap LineElement.texts) ∧
    ∀ s ts, Made s ts → Made (s ++ lineOut false es) (ts ++ es.flatMap LineElement.texts)
  | [] => ⟨Made.nil, fun _ _ h => by simpa [lineOut] using h⟩
  | e :: es => by
    have ih := (lineOut_made es).2
    refine ⟨?_, fun s ts h => ?_⟩
    · simpa [lineOut] using ih _ _ (element_made e)
    · have := ih _ _ (h.sep (m := py! " ") (by decide) (by decide) (element_made e))
      simpa [lineOut] using this

theorem multilineOut_made (i j : Nat) : ∀ (first : Bool) (m : Multiline),
    Made (multilineOut i j first m) (m.flatMap (·.flatMap LineElement.texts))
  | _, [] => Made.nil
  | first, [l] => by
    have := Made.before (m := if first then [] else pad (i * 4) ++ pad j) (by
      cases first
      · exact (plain_pad _).append (plain_pad _)
      · exact ⟨by simp, by simp⟩) (lineOut_made l).1
    simpa [multilineOut] using this
  | first, l :: l' :: ls => by
    have := (Made.before (m := if first then [] else pad (i * 4) ++ pad j) (by
      cases first
      · exact (plain_pad _).append (plain_pad _)
      · exact ⟨by simp, by simp⟩) (lineOut_made l).1).sep plain_newline (by simp [newline]) (multilineOut_made i j false (l' :: ls))
    simpa [multilineOut] using this

/-- the texts of an element in the first and in the second part of the comment -/
def Element.texts1 : Element → List PyStr
  | .param _ _ => []
  | e => e.texts
def Element.texts2 : Element → List PyStr
  | .param n m => Element.texts (.param n m)
  | _ => []

theorem elementOut_ended (i : Nat) (e : Element) : Ended (e.out i) e.texts1 := by
  cases e with
  | multiline m => exact ended_newline (Made.before (plain_pad _) (multilineOut_made i 0 true m))
  | todo m => exact ended_newline (Made.before ((plain_pad _).append (by decide)) (multilineOut_made i 10 true m))
  | see label link cross => exact ended_newline (Made.before ((plain_pad _).append (by decide)) (seeText_made label link cross))
  | param n m => exact .inl ⟨rfl, rfl⟩
  | deprecated => exact .inl ⟨rfl, rfl⟩

theorem paramOut_ended (i : Nat) (e : Element) : Ended (e.paramOut i) e.texts2 := by
  cases e with
  | param n m =>
    have h := (Made.before ((plain_pad (i * 4)).append (t := py! "- **") (by decide)) (Made.text n)).sep (m := py! "** ") (by decide)
      (by decide) (multilineOut_made i 2 true m)
    exact ended_newline h
  | _ => exact .inl ⟨rfl, rfl⟩

theorem paragraphsOut_ended (i : Nat) : ∀ (first : Bool) (c : Comments),
    Ended (paragraphsOut i first c) (c.flatMap (·.flatMap Element.texts1))
  | _, [] => .inl ⟨rfl, rfl⟩
  | first, p :: ps => by
    simp only [paragraphsOut, List.flatMap_cons]
    have h1 : Ended (if !first && p.any Element.isText then newline else []) [] := by
      split
      · exact ended_plain plain_newline
      · exact .inl ⟨rfl, rfl⟩
    have := (h1.trans (Ended.flatMap (elementOut_ended i) p)).trans (paragraphsOut_ended i false ps)
    simpa using this

theorem made_congr {s : PyStr} {ts us : List PyStr} (h : ∀ t, t ∈ ts ↔ t ∈ us) (hs : Made s ts) : Made s us :=
  ⟨fun ht => by obtain ⟨t, h1, h2⟩ := hs.triple ht; exact ⟨t, (h t).1 h1, h2⟩,
    fun ht => by obtain ⟨t, h1, h2⟩ := hs.backslash ht; exact ⟨t, (h t).1 h1, h2⟩, fun t ht => hs.all t ((h t).2 ht)⟩

theorem commentOut_ended (i : Nat) (c : Comments) : ∃ ts, (∀ t, t ∈ ts ↔ t ∈ c.texts) ∧ Ended (commentOut i c) ts := by
  refine ⟨c.flatMap (·.flatMap Element.texts1) ++ c.flatMap (·.flatMap Element.texts2), fun t => ?_, ?_⟩
  · simp only [Comments.texts, List.mem_append, List.mem_flatMap]
    constructor
    · rintro (⟨p, hp, e, he, ht⟩ | ⟨p, hp, e, he, ht⟩)
      · refine ⟨p, hp, e, he, ?_⟩
        cases e <;> first | exact ht | cases ht
      · refine ⟨p, hp, e, he, ?_⟩
        cases e <;> first | exact ht | cases ht
    · rintro ⟨p, hp, e, he, ht⟩
      cases hq : e.isParam with
      | true =>
        refine .inr ⟨p, hp, e, he, ?_⟩
        cases e <;> first | exact ht | cases hq
      | false =>
        refine .inl ⟨p, hp, e, he, ?_⟩
        cases e <;> first | exact ht | cases hq
  · unfold commentOut
    have h2 : Ended (if c.any (·.any Element.isParam) then newline ++ pad (i * 4) ++ py! "**Parameters:**" ++ newline ++ newline ++
        c.flatMap (·.flatMap (Element.paramOut i)) else []) (c.flatMap (·.flatMap Element.texts2)) := by
      split
      · have h := (ended_plain ((((plain_newline.append (plain_pad (i * 4))).append (t := py! "**Parameters:**") (by decide)).append
          plain_newline).append plain_newline)).trans
          (Ended.flatMap (f := fun p : Paragraph => p.flatMap (Element.paramOut i)) (g := fun p : Paragraph => p.flatMap Element.texts2)
            (fun p => Ended.flatMap (paramOut_ended i) p) c)
        simpa using h
      · rename_i hn
        refine .inl ⟨rfl, ?_⟩
        rw [List.flatMap_eq_nil_iff]
        intro p hp
        rw [List.flatMap_eq_nil_iff]
        intro e he
        cases e with
        | param n m =>
          exact absurd (by
            simp only [List.any_eq_true]
            exact ⟨p, hp, _, he, rfl⟩) hn
        | _ => rfl
    have h3 : Ended (if c.any (·.any Element.isDeprecated) then newline ++ pad (i * 4) ++ py! "**Deprecated**" ++ newline else []) [] := by
      split
      · exact ended_plain (((plain_newline.append (plain_pad _)).append (by decide)).append plain_newline)
      · exact .inl ⟨rfl, rfl⟩
    have := ((paragraphsOut_ended i true c).trans h2).trans h3
    simpa using this

theorem commentOut_made (i : Nat) (c : Comments) (before after : PyStr) (hb : Plain before) (ha : Plain after) :
    ∃ ts, (∀ t, t ∈ ts ↔ t ∈ c.texts) ∧ Ended (before ++ commentOut i c ++ after) ts := by
  obtain ⟨ts, h, he⟩ := commentOut_ended i c
  refine ⟨ts, h, ?_⟩
  have := ((ended_plain hb).trans he).trans (ended_plain ha)
  simpa using this

/-- without backslashes the literal ends at the first three quotes -/
theorem pyDocRest_ends (s rest : PyStr) (hb : 92 ∉ s) : ∀ (h : ¬ HasTripleQuote (s ++ [34, 34])),
    pyDocRest 0 (s ++ quotes ++ rest) = some (s, rest) := by
  induction s with
  | nil =>
    intro h
    simp [pyDocRest, quotes]
  | cons c s ih =>
    intro h
    have hc : c ≠ 92 := fun hc => hb (by simp [hc])
    have hs : ¬ HasTripleQuote (s ++ [34, 34]) := fun ⟨a, b, hx⟩ => h ⟨c :: a, b, by simpa using hx⟩
    have ht : ¬ (c = 34 ∧ (s ++ quotes ++ rest).take 2 = [34, 34]) := by
      rintro ⟨rfl, ht⟩
      apply h
      cases s with
      | nil => exact ⟨[], [], rfl⟩
      | cons d s =>
        cases s with
        | nil =>
          simp [quotes] at ht
          subst ht
          exact ⟨[], [34], rfl⟩
        | cons e s =>
          simp at ht
          obtain ⟨rfl, rfl⟩ := ht
          exact ⟨[], s ++ [34, 34], by simp⟩
    show pyDocRest 0 (c :: (s ++ quotes ++ rest)) = _
    simp only [pyDocRest]
    rw [if_neg hc, if_neg ht, ih (fun hm => hb (by simp [hm])) hs]
    rfl

/-- without backslashes a literal which contains three quotes ends there -/
theorem pyDocRest_early (s rest : PyStr) (hb : 92 ∉ s) (h : HasTripleQuote s) :
    ∃ a b, s = a ++ quotes ++ b ∧ pyDocRest 0 (s ++ rest) = some (a, b ++ rest) := by
  induction s with
  | nil =>
    obtain ⟨a, b, h⟩ := h
    simp at h
  | cons c s ih =>
    have hc : c ≠ 92 := fun hc => hb (by simp [hc])
    by_cases ht : c = 34 ∧ s.take 2 = [34, 34]
    · obtain ⟨rfl, ht⟩ := ht
      have hs : s = [34, 34] ++ s.drop 2 := by rw [← ht, List.take_append_drop]
      refine ⟨[], s.drop 2, by simp [quotes]; simpa using hs, ?_⟩
      rw [hs]
      simp [pyDocRest]
    · have hs : HasTripleQuote s := by
        obtain ⟨a, b, hab⟩ := h
        cases a with
        | nil =>
          simp only [List.nil_append, List.cons_append, List.cons.injEq] at hab
          obtain ⟨rfl, hab⟩ := hab
          exact absurd ⟨rfl, by rw [← hab]; rfl⟩ ht
        | cons x a =>
          simp only [List.cons_append, List.cons.injEq] at hab
          exact ⟨a, b, by simpa using hab.2⟩
      obtain ⟨a, b, hab, hr⟩ := ih (fun hm => hb (by simp [hm])) hs
      refine ⟨c :: a, b, by simp [hab], ?_⟩
      have ht' : ¬ (c = 34 ∧ (s ++ rest).take 2 = [34, 34]) := by
        rintro ⟨h1, h2⟩
        refine ht ⟨h1, ?_⟩
        have hl : 2 ≤ s.length := by
          rw [hab]
          simp [quotes]
          omega
        rwa [List.take_append_of_le_length hl] at h2
      show pyDocRest 0 (c :: (s ++ rest)) = _
      simp only [pyDocRest]
      rw [if_neg hc, if_neg ht', hr]
      rfl

end Zserio.Doc
