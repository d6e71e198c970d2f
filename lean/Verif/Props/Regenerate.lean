import Verif.Lemmas.Regenerate
/-
C95: after a successful run of the compiler the generated files are those of the schema, although files which are newer than the
schema are not written again.
-/
namespace Zserio.Regen

/-! ## Examples: schema files which begin with `i` import `b.zs`; `!` is an error; a file is generated for each schema file -/

/-- a compiler -/
def sampleJar : Jar where
  version := py! "2.1"
  core := py! "2.2"
  stamp := 1
  imports := fun text => if text.contains (ch! '!') then none else if text.head? = some (ch! 'i') then some [py! "b.zs"] else some []
  outputs := fun _ texts => if texts.any (·.contains (ch! '?')) then none else some (texts.map fun t => (t.drop 1 |>.take 1, t))

/-- its next version, which generates other code -/
def sampleJar2 : Jar := { sampleJar with
  version := py! "2.2"
  outputs := fun _ texts => some (texts.map fun t => (t.drop 1 |>.take 1, py! "new " ++ t)) }

/-- the options -/
def sampleFlags : Flags := ⟨true, true, true, true, false, false, false⟩

/-- nothing has been generated -/
def sampleState : State := ⟨1, fun _ => none, fun _ => none, sampleJar, .idle false⟩

/-- two schema files are written -/
def sampleEdits : List Event := [.edit (py! "a.zs") (py! "iA1"), .edit (py! "b.zs") (py! " B1"), .tick]

/-- a run -/
def sampleRun : List Event := .start (py! "a.zs") sampleFlags false :: .tick :: List.replicate 20 (.step 1000)

/-- a run with `-ignoreTimestamps` -/
def sampleForced : List Event := .start (py! "a.zs") sampleFlags true :: .tick :: List.replicate 20 (.step 1000)

/-- the text and the time stamp of a generated file -/
def State.file (s : State) (p : PyStr) : Option (PyStr × Nat) := (s.out p).map fun f => (f.text, f.stamp)

example : (run sampleState (sampleEdits ++ sampleRun)).file (py! "A") = some (sampleJar.fileText sampleFlags (py! "iA1"), 3) := by decide +kernel

example : (run sampleState (sampleEdits ++ sampleRun)).file (py! "B") = some (sampleJar.fileText sampleFlags (py! " B1"), 3) := by decide +kernel

/-! ## One run -/

/-- **Exactly the effect of a run**: whatever was there before, a successful run which nothing disturbs writes just those generated
files which are not newer than the schema files and the compiler, or which do not tell the same versions and options, or all with
`-ignoreTimestamps`. The others, and all other files, stay as they are. No two of the generated files are the same file. -/
theorem C95_run {main : PyStr} {flags : Flags} {ignore : Bool} {s : State} {es : List Event} (hi : s.proc.isIdle = true)
    (hq : ∀ e ∈ es, e.quiet = true) (hs : (run s (.start main flags ignore :: es)).proc = .idle true) :
    Outcome main ⟨s.jar, flags, ignore⟩ s (run s (.start main flags ignore :: es)) :=
  (quiet_start hi hq).2 hs

example : (run sampleState sampleEdits).proc.isIdle = true ∧ (∀ e ∈ sampleRun.tail, e.quiet = true) ∧
    (run (run sampleState sampleEdits) sampleRun).proc = .idle true := ⟨rfl, by decide, by
      have : ((run (run sampleState sampleEdits) sampleRun).proc matches .idle true) = true := by decide +kernel
      revert this
      split
      · rename_i h; exact fun _ => h
      · simp⟩

/-- the run is repeated: nothing is written -/
example : (run sampleState (sampleEdits ++ sampleRun ++ sampleRun)).file (py! "A") =
    some (sampleJar.fileText sampleFlags (py! "iA1"), 3) := by decide +kernel

/-- a schema file is changed: both files are written again -/
example : (run sampleState (sampleEdits ++ sampleRun ++ [.edit (py! "b.zs") (py! " B2"), .tick] ++ sampleRun)).file (py! "A") =
    some (sampleJar.fileText sampleFlags (py! "iA1"), 5) ∧
    (run sampleState (sampleEdits ++ sampleRun ++ [.edit (py! "b.zs") (py! " B2"), .tick] ++ sampleRun)).file (py! "B") =
    some (sampleJar.fileText sampleFlags (py! " B2"), 5) := by decide +kernel

/-- another version is installed, whose files are old -/
example : (run sampleState (sampleEdits ++ sampleRun ++ [.install sampleJar2] ++ sampleRun)).file (py! "A") =
    some (sampleJar2.fileText sampleFlags (py! "new iA1"), 4) := by decide +kernel

/-- **With `-ignoreTimestamps` a successful run always gives the right files**: whatever has been generated before, and however
files have been changed. -/
theorem C95_force {main : PyStr} {flags : Flags} {s : State} {es : List Event} (hi : s.proc.isIdle = true)
    (hq : ∀ e ∈ es, e.quiet = true) (hs : (run s (.start main flags true :: es)).proc = .idle true) :
    UpToDate s.jar flags main s.sources (run s (.start main flags true :: es)).out := by
  obtain ⟨view, outs, h1, h2, _, h4, _⟩ := C95_run hi hq hs
  refine ⟨view, outs, h1, h2, fun p body hp => ?_⟩
  obtain ⟨m, _, hm⟩ := (h4 p body hp).2 fun hk => by simp [Kept] at hk
  exact ⟨m, hm⟩

example : (run sampleState (sampleEdits ++ sampleRun ++ [.copy (py! "b.zs") (py! " B2") 1] ++ sampleForced)).file (py! "B") =
    some (sampleJar.fileText sampleFlags (py! " B2"), 4) := by decide +kernel

/-- **When all is up to date nothing is written.** -/
theorem C95_unchanged {main : PyStr} {flags : Flags} {s : State} {es : List Event} (hi : s.proc.isIdle = true)
    (hq : ∀ e ∈ es, e.quiet = true) (hs : (run s (.start main flags false :: es)).proc = .idle true)
    (hk : ∀ view outs, Parsed s.jar s.sources [main] [] view → s.jar.outputs flags (view.map (·.2)) = some outs → ∀ p body, (p, body) ∈ outs →
      ∃ f, s.out p = some f ∧ firstLines 2 f.text = [s.jar.versionLine, flags.setupLine] ∧ Older s.jar s.sources view f.stamp) :
    (run s (.start main flags false :: es)).out = s.out := by
  obtain ⟨view, outs, h1, h2, _, h4, h5⟩ := C95_run hi hq hs
  funext p
  by_cases hp : p ∈ outs.map (·.1)
  · rw [List.mem_map] at hp
    obtain ⟨⟨p, body⟩, hp, rfl⟩ := hp
    obtain ⟨f, e1, e2, e3⟩ := hk view outs h1 h2 p body hp
    refine (h4 p body hp).1 ⟨rfl, ?_, ?_⟩
    · simp [e1, checkDescription, e2]
    · rw [e1]; exact e3
  · exact h5 p hp

/-- **A schema which is refused changes no file.** (A schema file which is missing or cannot be parsed, or a schema which is
rejected.) -/
theorem C95_refused {main : PyStr} {flags : Flags} {ignore : Bool} {s : State} {es : List Event} (hi : s.proc.isIdle = true)
    (hq : ∀ e ∈ es, e.quiet = true)
    (hr : ¬ ∃ view outs, Parsed s.jar s.sources [main] [] view ∧ s.jar.outputs flags (view.map (·.2)) = some outs) :
    (run s (.start main flags ignore :: es)).out = s.out ∧ (run s (.start main flags ignore :: es)).proc ≠ .idle true :=
  ⟨refused_run hi hq hr, fun hs => by
    obtain ⟨view, outs, h1, h2, _⟩ := C95_run hi hq hs
    exact hr ⟨view, outs, h1, h2⟩⟩

/-- **Every run comes to its end**: for a schema which is accepted, and whose generated files are all different, a run which is not
disturbed is successful after some number of steps, however small the pieces are in which files are written. -/
theorem C95_finishes {main : PyStr} {flags : Flags} {ignore : Bool} {s : State} {view outs} (hi : s.proc.isIdle = true)
    (h1 : Parsed s.jar s.sources [main] [] view) (h2 : s.jar.outputs flags (view.map (·.2)) = some outs) (h3 : (outs.map (·.1)).Nodup) :
    ∃ k, (run s (.start main flags ignore :: List.replicate k (.step 0))).proc = .idle true :=
  run_finishes hi h1 h2 h3

/-- the schema files of the example -/
theorem sample_parsed {src : Tree} {a b : PyStr} (h : (src (py! "a.zs")).map (·.text) = some a ∧ (src (py! "b.zs")).map (·.text) = some b ∧
    sampleJar.imports a = some [py! "b.zs"] ∧ sampleJar.imports b = some []) :
    Parsed sampleJar src [py! "a.zs"] [] [(py! "a.zs", a), (py! "b.zs", b)] := by
  obtain ⟨h1, h2, h3, h4⟩ := h
  rw [Option.map_eq_some_iff] at h1 h2
  obtain ⟨f, h1, rfl⟩ := h1
  obtain ⟨g, h2, rfl⟩ := h2
  exact .file (by simp) h1 h3 (.file (by simp) h2 h4 (.done _))

example : ∃ k, (run (run sampleState sampleEdits) (.start (py! "a.zs") sampleFlags false :: List.replicate k (.step 0))).proc = .idle true :=
  C95_finishes (by rfl) (sample_parsed (a := py! "iA1") (b := py! " B1") (by decide +kernel)) (outs := [(py! "A", py! "iA1"), (py! "B", py! " B1")]) (by decide) (by decide)

/-! ## Histories -/

/-- **After a careful history a successful run gives the right files.** At the beginning nothing has been generated. Then schema
files are written and removed, other versions of the compiler are installed, and the compiler is run with all kinds of options,
successfully or not, or is stopped, in any order, as long as files change only between runs, changed files get the time of the
change, and no run stops in the middle of a file. After this a run which is successful leaves the files which would be generated into
an empty directory.

It is partial since the restrictions are needed: see `C95_crash_deviates` and what follows. -/
theorem C95_incremental_partial {J : Jar → Prop} (hJ : Releases J) {main : PyStr} {flags : Flags} {ignore : Bool} {s0 : State}
    {before es : List Event} (h0 : ∀ p, s0.out p = none) (hi0 : s0.proc.isIdle = true) (hj0 : J s0.jar)
    (hc : Careful main J s0 before) (hi : (run s0 before).proc.isIdle = true) (hq : ∀ e ∈ es, e.quiet = true)
    (hs : (run s0 (before ++ .start main flags ignore :: es)).proc = .idle true) :
    UpToDate (run s0 before).jar flags main (run s0 before).sources (run s0 (before ++ .start main flags ignore :: es)).out := by
  have hr : run s0 (before ++ .start main flags ignore :: es) = run (run s0 before) (.start main flags ignore :: es) := by
    simp [run, List.foldl_append]
  rw [hr] at hs ⊢
  have idle_of : ∀ {q : Proc}, q.isIdle = true → ∃ b, q = .idle b := by
    rintro (b | _ | _) h
    · exact ⟨b, rfl⟩
    · simp [Proc.isIdle] at h
    · simp [Proc.isIdle] at h
  obtain ⟨b0, hb0⟩ := idle_of hi0
  have hsound : Sound main J (run s0 before) := by
    refine sound_run before s0 ⟨hj0, fun p f hf => by rw [h0] at hf; simp at hf, ⟨s0.jar, flags, ignore⟩, s0, ?_, fun _ => hj0⟩ hc
    simp only [Active, hb0]
  generalize run s0 before = s at *
  obtain ⟨b, hb⟩ := idle_of hi
  obtain ⟨view, outs, h1, h2, h3, h4, _⟩ := C95_run hi hq hs
  refine ⟨view, outs, h1, h2, fun p body hp => ?_⟩
  by_cases hk : Kept ⟨s.jar, flags, ignore⟩ s.sources view (s.out p)
  · rw [(h4 p body hp).1 hk]
    exact kept_text (a := ⟨s.jar, flags, ignore⟩) hJ hsound.1 (fun p f hf => hsound.2.1 p f hf (by rw [hb]; simp [Proc.opening]))
      h1 h2 h3 hp hk
  · obtain ⟨m, _, hm⟩ := (h4 p body hp).2 hk
    exact ⟨m, hm⟩

/-- the two compilers -/
def sampleJars (j : Jar) : Prop := j = sampleJar ∨ j = sampleJar2

theorem sample_releases : Releases sampleJars where
  version := by rintro j (rfl | rfl) <;> decide
  core := by rintro j (rfl | rfl) <;> decide
  same := by
    rintro j j' (rfl | rfl) (rfl | rfl) h _
    · exact ⟨rfl, rfl⟩
    · exact absurd h (by decide)
    · exact absurd h (by decide)
    · exact ⟨rfl, rfl⟩

/-- a history with an error in a schema file, a run which is stopped between two files, and a new compiler -/
def sampleHistory : List Event :=
  sampleEdits ++ [.start (py! "a.zs") sampleFlags false] ++ List.replicate 8 (.step 1000) ++ [.stop, .tick] ++ sampleRun ++
    [.edit (py! "b.zs") (py! " B!")] ++ sampleRun ++ [.edit (py! "b.zs") (py! " B3"), .install sampleJar2, .tick]

theorem careful_append {main : PyStr} {J : Jar → Prop} : ∀ (es es' : List Event) (s : State),
    Careful main J s es → Careful main J (run s es) es' → Careful main J s (es ++ es')
  | [], _, _, _, h => h
  | e :: es, es', s, h1, h2 => ⟨h1.1, careful_append es es' (apply s e) h1.2 h2⟩

theorem careful_steps {main : PyStr} {J : Jar → Prop} {n : Nat} : ∀ (k : Nat) (s : State), Careful main J s (List.replicate k (.step n))
  | 0, _ => trivial
  | k + 1, s => ⟨trivial, careful_steps k _⟩

theorem sample_careful : Careful (py! "a.zs") sampleJars sampleState sampleHistory := by
  unfold sampleHistory
  have hrun : ∀ s, Careful (py! "a.zs") sampleJars s sampleRun := fun s => ⟨rfl, trivial, careful_steps _ _⟩
  refine careful_append _ _ _ (careful_append _ _ _ (careful_append _ _ _ (careful_append _ _ _ (careful_append _ _ _ (careful_append _ _ _
    (careful_append _ _ _ ⟨rfl, rfl, trivial, trivial⟩ ⟨rfl, trivial⟩) (careful_steps _ _)) ⟨?_, trivial, trivial⟩) (hrun _)) ⟨?_, trivial⟩)
    (hrun _)) ⟨?_, ⟨?_, .inr rfl⟩, trivial, trivial⟩
  all_goals (try simp only [allowed]); decide +kernel

example : (run sampleState (sampleHistory ++ sampleRun)).file (py! "B") = some (sampleJar2.fileText sampleFlags (py! "new  B3"), 7) ∧
    (run sampleState sampleHistory).proc.isIdle = true := by decide +kernel

/-! ## What is not so -/

/-- the files are not those of the schema -/
theorem not_upToDate {j : Jar} {flags : Flags} {main : PyStr} {src out : Tree} {view outs} (h1 : Parsed j src [main] [] view)
    (h2 : j.outputs flags (view.map (·.2)) = some outs) {p body : PyStr} (h3 : (p, body) ∈ outs)
    (h4 : (out p).map (·.text) ≠ some (j.fileText flags body)) : ¬ UpToDate j flags main src out := by
  rintro ⟨view', outs', g1, g2, g3⟩
  have := g1.unique h1
  subst this
  rw [h2] at g2
  cases g2
  obtain ⟨m, hm⟩ := g3 p body h3
  exact h4 (by rw [hm]; rfl)

/-- the length of the file header -/
def sampleHeader : Nat := (sampleJar.fileText sampleFlags []).length

/-- the compiler is killed in the middle of the file `A`, when the header and one more character have been written -/
def crashHistory : List Event :=
  sampleEdits ++ [.start (py! "a.zs") sampleFlags false] ++ List.replicate 7 (.step sampleHeader) ++ [.stop, .tick] ++ sampleRun

/-- **A run which stops in the middle of a file can leave a truncated file, and later runs take it for a good one.** -/
theorem C95_crash_deviates : (run sampleState crashHistory).proc.isIdle = true ∧
    (run sampleState crashHistory).file (py! "A") = some (sampleJar.fileText sampleFlags (py! "i"), 2) ∧
    (run sampleState crashHistory).file (py! "B") = some (sampleJar.fileText sampleFlags (py! " B1"), 4) ∧
    ¬ UpToDate sampleJar sampleFlags (py! "a.zs") (run sampleState crashHistory).sources (run sampleState crashHistory).out := by
  refine ⟨by decide +kernel, by decide +kernel, by decide +kernel, ?_⟩
  exact not_upToDate (p := py! "A") (body := py! "iA1") (outs := [(py! "A", py! "iA1"), (py! "B", py! " B1")])
    (sample_parsed (a := py! "iA1") (b := py! " B1") (by decide +kernel)) (by decide) (by decide) (by decide +kernel)

/-- a schema file is changed when it has been parsed and its time stamp has not yet been read, then nothing else changes -/
def editHistory : List Event :=
  sampleEdits ++ [.start (py! "a.zs") sampleFlags false, .step 1000, .edit (py! "a.zs") (py! "iA2"), .tick] ++
    List.replicate 20 (.step 1000) ++ [.tick] ++ sampleRun

/-- **A schema file which is changed while the compiler runs can be taken for older than the files generated from its former
contents.** -/
theorem C95_edit_deviates : (run sampleState editHistory).proc.isIdle = true ∧
    (run sampleState editHistory).file (py! "A") = some (sampleJar.fileText sampleFlags (py! "iA1"), 3) ∧
    ¬ UpToDate sampleJar sampleFlags (py! "a.zs") (run sampleState editHistory).sources (run sampleState editHistory).out := by
  refine ⟨by decide +kernel, by decide +kernel, ?_⟩
  exact not_upToDate (p := py! "A") (body := py! "iA2") (outs := [(py! "A", py! "iA2"), (py! "B", py! " B1")])
    (sample_parsed (a := py! "iA2") (b := py! " B1") (by decide +kernel)) (by decide) (by decide) (by decide +kernel)

/-- a schema file is replaced by another one, whose time stamp is kept -/
def copyHistory : List Event := sampleEdits ++ sampleRun ++ [.copy (py! "b.zs") (py! " B2") 2, .tick] ++ sampleRun

/-- **A schema file which is replaced by an older one is not noticed.** -/
theorem C95_copy_deviates : (run sampleState copyHistory).proc.isIdle = true ∧
    (run sampleState copyHistory).file (py! "B") = some (sampleJar.fileText sampleFlags (py! " B1"), 3) ∧
    ¬ UpToDate sampleJar sampleFlags (py! "a.zs") (run sampleState copyHistory).sources (run sampleState copyHistory).out := by
  refine ⟨by decide +kernel, by decide +kernel, ?_⟩
  exact not_upToDate (p := py! "B") (body := py! " B2") (outs := [(py! "A", py! "iA1"), (py! "B", py! " B2")])
    (sample_parsed (a := py! "iA1") (b := py! " B2") (by decide +kernel)) (by decide) (by decide) (by decide +kernel)

/-- two schemas are compiled one after the other into the same directory, and both generate the file `A` -/
def twoHistory : List Event :=
  .edit (py! "c.zs") (py! " A9") :: sampleEdits ++ (.start (py! "c.zs") sampleFlags false :: .tick :: List.replicate 20 (.step 1000)) ++ sampleRun

/-- **When two schemas are compiled into the same directory, a file which both generate is that of the first one.** (As `api.py` of a
common parent package.) -/
theorem C95_two_deviates : (run sampleState twoHistory).proc.isIdle = true ∧
    (run sampleState twoHistory).file (py! "A") = some (sampleJar.fileText sampleFlags (py! " A9"), 3) ∧
    ¬ UpToDate sampleJar sampleFlags (py! "a.zs") (run sampleState twoHistory).sources (run sampleState twoHistory).out := by
  refine ⟨by decide +kernel, by decide +kernel, ?_⟩
  exact not_upToDate (p := py! "A") (body := py! "iA1") (outs := [(py! "A", py! "iA1"), (py! "B", py! " B1")])
    (sample_parsed (a := py! "iA1") (b := py! " B1") (by decide +kernel)) (by decide) (by decide) (by decide +kernel)

/-- the type `B` is renamed to `C` -/
def renameHistory : List Event := sampleEdits ++ sampleRun ++ [.edit (py! "b.zs") (py! " C1"), .tick]

/-- **Files of types which have been removed stay**: after a careful history and a successful run there is a file which is not
generated for the schema. -/
theorem C95_stale_deviates : Careful (py! "a.zs") sampleJars sampleState (renameHistory ++ sampleRun) ∧
    (run sampleState (renameHistory ++ sampleRun)).file (py! "B") = some (sampleJar.fileText sampleFlags (py! " B1"), 3) ∧
    ∃ view outs, Parsed sampleJar (run sampleState (renameHistory ++ sampleRun)).sources [py! "a.zs"] [] view ∧
      sampleJar.outputs sampleFlags (view.map (·.2)) = some outs ∧ py! "B" ∉ outs.map (·.1) := by
  have hrun : ∀ s, Careful (py! "a.zs") sampleJars s sampleRun := fun s => ⟨rfl, trivial, careful_steps _ _⟩
  refine ⟨careful_append _ _ _ (careful_append _ _ _ (careful_append _ _ _ ⟨rfl, rfl, trivial, trivial⟩ (hrun _)) ⟨?_, trivial, trivial⟩) (hrun _),
    by decide +kernel, _, [(py! "A", py! "iA1"), (py! "C", py! " C1")],
    sample_parsed (a := py! "iA1") (b := py! " C1") (by decide +kernel), by decide, by decide⟩
  simp only [allowed]; decide +kernel

end Zserio.Regen
