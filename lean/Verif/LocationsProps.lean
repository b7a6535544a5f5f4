import Verif.Locations
import Verif.ParseFileProps

/-!
# The macro finds what was generated: properties C37 and C38
-/

set_option autoImplicit false

namespace Verif

/-! ## Paths -/

theorem pathNames_nil : pathNames [] = [] := by rw [pathNames]

theorem pathNames_slash (l : List Char) : pathNames ('/' :: l) = pathNames l := by
  rw [pathNames, if_pos rfl]

theorem pathNames_cons {c : Char} (h : c ≠ '/') (l : List Char) :
    pathNames (c :: l) = (c :: l.takeWhile (· ≠ '/')) :: pathNames (l.dropWhile (· ≠ '/')) := by
  rw [pathNames, if_neg h]

theorem takeWhile_noSlash {l : List Char} (h : '/' ∉ l) : l.takeWhile (· ≠ '/') = l := by
  induction l with
  | nil => rfl
  | cons c r ih =>
    have hc : c ≠ '/' := fun e => h (e ▸ List.mem_cons_self)
    rw [List.takeWhile_cons_of_pos (by simpa using hc), ih fun hm => h (List.mem_cons_of_mem _ hm)]

theorem dropWhile_noSlash {l : List Char} (h : '/' ∉ l) : l.dropWhile (· ≠ '/') = [] := by
  induction l with
  | nil => rfl
  | cons c r ih =>
    have hc : c ≠ '/' := fun e => h (e ▸ List.mem_cons_self)
    rw [List.dropWhile_cons_of_pos (by simpa using hc), ih fun hm => h (List.mem_cons_of_mem _ hm)]

/-- A name by itself. -/
theorem pathNames_name {l : List Char} (hn : l ≠ []) (h : '/' ∉ l) : pathNames l = [l] := by
  cases l with
  | nil => exact absurd rfl hn
  | cons c r =>
    have hc : c ≠ '/' := fun e => h (e ▸ List.mem_cons_self)
    have hr : '/' ∉ r := fun hm => h (List.mem_cons_of_mem _ hm)
    rw [pathNames_cons hc, takeWhile_noSlash hr, dropWhile_noSlash hr, pathNames_nil]

/-- The names of two paths with a slash between. -/
theorem pathNames_slash_append (a b : List Char) :
    pathNames (a ++ '/' :: b) = pathNames a ++ pathNames b := by
  generalize hn : a.length = n
  induction n using Nat.strongRecOn generalizing a with
  | ind n ih =>
    cases a with
    | nil => rw [List.nil_append, pathNames_slash, pathNames_nil, List.nil_append]
    | cons c r =>
      rw [List.cons_append]
      by_cases hc : c = '/'
      · subst hc
        rw [pathNames_slash, pathNames_slash]
        exact ih r.length (by simp at hn; omega) r rfl
      · rw [pathNames_cons hc, pathNames_cons hc]
        by_cases hr : '/' ∈ r
        · have h1 : (r ++ '/' :: b).takeWhile (· ≠ '/') = r.takeWhile (· ≠ '/') := by
            clear ih hn
            induction r with
            | nil => cases hr
            | cons d r ihr =>
              by_cases hd : d = '/'
              · subst hd; simp
              · rw [List.cons_append, List.takeWhile_cons_of_pos (by simpa using hd),
                  List.takeWhile_cons_of_pos (by simpa using hd)]
                rcases List.mem_cons.1 hr with h | h
                · exact absurd h.symm hd
                · rw [ihr h]
          have h2 : (r ++ '/' :: b).dropWhile (· ≠ '/') = r.dropWhile (· ≠ '/') ++ '/' :: b := by
            clear ih hn h1
            induction r with
            | nil => cases hr
            | cons d r ihr =>
              by_cases hd : d = '/'
              · subst hd; simp
              · rw [List.cons_append, List.dropWhile_cons_of_pos (by simpa using hd),
                  List.dropWhile_cons_of_pos (by simpa using hd)]
                rcases List.mem_cons.1 hr with h | h
                · exact absurd h.symm hd
                · rw [ihr h]
          rw [h1, h2, ih (r.dropWhile (· ≠ '/')).length ?_ _ rfl, List.cons_append]
          have := (List.dropWhile_sublist (l := r) (· ≠ '/')).length_le
          simp only [List.length_cons] at hn
          omega
        · have h1 : (r ++ '/' :: b).takeWhile (· ≠ '/') = r := by
            rw [List.takeWhile_append_of_pos]
            · simp
            · intro x hx
              have hx' : x ≠ '/' := fun e => hr (e ▸ hx)
              simpa using hx'
          have h2 : (r ++ '/' :: b).dropWhile (· ≠ '/') = '/' :: b := by
            rw [List.dropWhile_append_of_pos]
            · simp
            · intro x hx
              have hx' : x ≠ '/' := fun e => hr (e ▸ hx)
              simpa using hx'
          rw [h1, h2, takeWhile_noSlash hr, dropWhile_noSlash hr, pathNames_slash, pathNames_nil]
          rfl

/-- A path which can be joined to another: not empty and relative. -/
def Relative (p : String) : Prop := p.toList ≠ [] ∧ absolute p = false

theorem absolute_iff {p : String} : absolute p = true ↔ ∃ r, p.toList = '/' :: r := by
  unfold absolute
  cases h : p.toList with
  | nil => simp
  | cons c r => simp

theorem pathNames_join {a b : String} (hb : absolute b = false) :
    pathNames (joinPath a b).toList = pathNames a.toList ++ pathNames b.toList := by
  unfold joinPath
  rw [if_neg (by simp [hb])]
  split
  · next h =>
    rw [String.toList_append]
    rcases h with h | h
    · rw [h, pathNames_nil]; rfl
    · obtain ⟨l, hl⟩ := List.getLast?_eq_some_iff.1 h
      rw [hl, List.append_assoc, List.singleton_append, pathNames_slash_append,
        pathNames_slash_append, pathNames_nil, List.append_nil]
  · rw [String.toList_append, String.toList_append]
    have : ("/" : String).toList = ['/'] := rfl
    rw [this, List.append_assoc, List.singleton_append, pathNames_slash_append]

theorem absolute_join {a b : String} (hb : absolute b = false) (ha : absolute a = true) :
    absolute (joinPath a b) = true := by
  unfold joinPath
  rw [if_neg (by simp [hb])]
  obtain ⟨r, hr⟩ := absolute_iff.1 ha
  split
  · rw [absolute_iff]; exact ⟨r ++ b.toList, by rw [String.toList_append, hr]; rfl⟩
  · rw [absolute_iff]
    exact ⟨r ++ ("/" : String).toList ++ b.toList, by
      rw [String.toList_append, String.toList_append, hr]; rfl⟩

theorem relative_join {a b : String} (hb : absolute b = false) (ha : absolute a = false) :
    absolute (joinPath a b) = false := by
  unfold joinPath
  rw [if_neg (by simp [hb])]
  unfold absolute at ha hb ⊢
  cases h : a.toList with
  | nil => rw [if_pos (.inl rfl), String.toList_append, h]; exact hb
  | cons c r =>
    rw [h] at ha
    split
    · rw [String.toList_append, h]; exact ha
    · rw [String.toList_append, String.toList_append, h]; exact ha

/-- Joining a path to a directory means the file in that directory. -/
theorem locate_join {base : List (List Char)} {a b : String} (hb : absolute b = false) :
    locate base (joinPath a b) = locate base a ++ pathNames b.toList := by
  unfold locate
  cases ha : absolute a with
  | true => rw [if_pos (absolute_join hb ha), if_pos rfl, pathNames_join hb]
  | false =>
    rw [if_neg (by simp [relative_join hb ha]), if_neg (by simp), pathNames_join hb,
      List.append_assoc]

/-! ## File names -/

theorem fname_head (c : Config) : ∃ r, c.rsFilename.toList = 'a' :: r := by
  unfold Config.rsFilename
  rw [String.toList_append, String.toList_append]
  exact ⟨_, rfl⟩

theorem fname_relative (c : Config) : absolute c.rsFilename = false := by
  obtain ⟨r, h⟩ := fname_head c
  unfold absolute
  rw [h]
  rfl

/-- What the build script makes of a block keeps the name of its file: discovered things and the
allowlist are not in it. -/
theorem attached_fname {auto : Bool} {supers : List SubclassReq} {d : Discoveries} {c c' : Config}
    (h : Attached auto supers d c c') : c'.confirmComplete.rsFilename = c.rsFilename := by
  obtain ⟨a, _, rfl⟩ := h
  unfold Config.confirmComplete
  split <;> rfl

/-! ## C37 -/

/-- The name of the build script's directory for Rust code. -/
def rsName : List Char := ['r', 's']

/-- The name of its directory in the output directory. -/
def buildDirName : List Char := "autocxx-build-dir".toList

theorem names_rs : pathNames ("rs" : String).toList = [rsName] :=
  pathNames_name (by decide) (by decide)

theorem names_build : pathNames ("autocxx-build-dir" : String).toList = [buildDirName] :=
  pathNames_name (by decide) (by decide)

/-- Where a build script writes a block's code, if it can: in a directory of its own in the custom
directory, in that of AUTOCXX_RS or in the output directory. -/
theorem builder_writes (custom : Option String) (e : LocEnv) (cwd : List (List Char)) (c : Config) :
    (builderRsPath custom e c.rsFilename).map (locate cwd) =
      match custom, e.jsonArchive, e.rsFile, e.rs, e.outDir with
      | some d, _, _, _, _ => some (locate cwd d ++ [rsName] ++ pathNames c.rsFilename.toList)
      | none, none, none, some d, _ =>
        some (locate cwd d ++ [rsName] ++ pathNames c.rsFilename.toList)
      | none, none, none, none, some d =>
        some (locate cwd d ++ [buildDirName, rsName] ++ pathNames c.rsFilename.toList)
      | none, _, _, _, _ => none := by
  have hf := fname_relative c
  have key : ∀ d, locate cwd (joinPath (joinPath d "rs") c.rsFilename) =
      locate cwd d ++ [rsName] ++ pathNames c.rsFilename.toList := by
    intro d
    rw [locate_join hf, locate_join (by decide), names_rs]
  obtain ⟨j, f, r, o⟩ := e
  cases custom with
  | some d => exact congrArg some (key d)
  | none =>
    cases j with
    | some x => rfl
    | none =>
      cases f with
      | some x => rfl
      | none =>
        cases r with
        | some d => exact congrArg some (key d)
        | none =>
          cases o with
          | none => rfl
          | some d =>
            refine congrArg some ?_
            rw [locate_join hf, locate_join (by decide), locate_join (by decide), names_rs,
              names_build]
            simp

theorem locate_prefix {base : List (List Char)} {d : String} {r : List Char}
    (hd : absolute d = true) :
    locate base (d ++ String.ofList ('/' :: r)) = locate base d ++ pathNames r := by
  obtain ⟨l, hl⟩ := absolute_iff.1 hd
  have h2 : absolute (d ++ String.ofList ('/' :: r)) = true :=
    absolute_iff.2 ⟨l ++ '/' :: r, by rw [String.toList_append, hl, String.toList_ofList]; rfl⟩
  unfold locate
  rw [if_pos h2, if_pos hd, String.toList_append, String.toList_ofList, pathNames_slash_append]

theorem outDir_file (c : Config) (base : List (List Char)) {d : String} (hd : absolute d = true) :
    locate base (d ++ ("/autocxx-build-dir/rs/" ++ c.rsFilename)) =
      locate base d ++ [buildDirName, rsName] ++ pathNames c.rsFilename.toList := by
  have e : "/autocxx-build-dir/rs/" ++ c.rsFilename =
      String.ofList ('/' :: ("autocxx-build-dir".toList ++ '/' :: ("rs".toList ++ '/' ::
        c.rsFilename.toList))) := by
    apply String.toList_inj.1
    rw [String.toList_append, String.toList_ofList, String.toList_ofList]
    rfl
  rw [e, locate_prefix hd, pathNames_slash_append, pathNames_slash_append, names_build, names_rs]
  simp

/-- C37: what a block which is not for parsing only compiles to, for every setting: archive bindings
if AUTOCXX_RS_JSON_ARCHIVE is set, otherwise the file AUTOCXX_RS_FILE, otherwise the file in the
custom directory's Rust directory, otherwise the one in the directory AUTOCXX_RS itself, otherwise
the one in the output directory, otherwise nothing compiles. -/
theorem macro_reads {τ : Type} (hash : Config → Nat) (parse : String → Option τ)
    (files : String → Option (Option MultiBindings)) (custom : Option String) (e : LocEnv)
    (srcDir : List (List Char)) (c : Config) (hp : c.parseOnly = false)
    (ho : ∀ d, e.outDir = some d → absolute d = true) :
    macroReads hash parse files custom e srcDir c =
      match e.jsonArchive, e.rsFile, custom, e.rs, e.outDir with
      | some l, _, _, _, _ => (archiveBindings hash parse files l c).map .bindings
      | none, some f, _, _, _ => some (.file (locate srcDir f))
      | none, none, some d, _, _ =>
        some (.file (locate srcDir d ++ [rsName] ++ pathNames c.rsFilename.toList))
      | none, none, none, some d, _ =>
        some (.file (locate srcDir d ++ pathNames c.rsFilename.toList))
      | none, none, none, none, some d =>
        some (.file (locate srcDir d ++ [buildDirName, rsName] ++ pathNames c.rsFilename.toList))
      | none, none, none, none, none => none := by
  have hf := fname_relative c
  obtain ⟨j, f, r, o⟩ := e
  have hj : ∀ l, ((archiveBindings hash parse files l c).map Include.bindings).bind
      (Include.compile (macroEnv custom ⟨some l, f, r, o⟩) srcDir) =
      (archiveBindings hash parse files l c).map .bindings := by
    intro l
    cases archiveBindings hash parse files l c <;> rfl
  unfold macroReads generateRs
  rw [if_neg (by simp [hp])]
  cases custom with
  | some d =>
    cases j with
    | some l => exact hj l
    | none =>
      cases f with
      | some f => rfl
      | none =>
        refine congrArg (fun x => some (Compiled.file x)) ?_
        rw [locate_join hf, locate_join (by decide), names_rs]
  | none =>
    cases j with
    | some l => exact hj l
    | none =>
      cases f with
      | some f => rfl
      | none =>
        cases r with
        | some d =>
          refine congrArg (fun x => some (Compiled.file x)) ?_
          rw [locate_join hf]
        | none =>
          cases o with
          | none => rfl
          | some d =>
            refine congrArg (fun x => some (Compiled.file x)) ?_
            exact outDir_file c srcDir (ho d rfl)

/-- The setting works: either nothing but the custom directory decides, or nothing but the output
directory does. -/
def GoodSetting (custom : Option String) (e : LocEnv) : Prop :=
  e.jsonArchive = none ∧ e.rsFile = none ∧
    (custom.isSome = true ∨ (e.rs = none ∧ e.outDir.isSome = true))

/-- C37: with such a setting, and absolute directories, every block which is not for parsing only
compiles to the file which the build script wrote for it. -/
theorem macro_finds_file {τ : Type} (hash : Config → Nat) (parse : String → Option τ)
    (files : String → Option (Option MultiBindings)) {custom : Option String} {e : LocEnv}
    (cwd srcDir : List (List Char)) {c : Config} (hp : c.parseOnly = false)
    (hg : GoodSetting custom e)
    (hc : ∀ d, custom = some d → absolute d = true)
    (ho : ∀ d, e.outDir = some d → absolute d = true) :
    ∃ w, (builderRsPath custom e c.rsFilename).map (locate cwd) = some w ∧
      macroReads hash parse files custom e srcDir c = some (.file w) := by
  have hl : ∀ d, absolute d = true → locate srcDir d = locate cwd d := by
    intro d hd; unfold locate; rw [if_pos hd, if_pos hd]
  rw [builder_writes, macro_reads hash parse files custom e srcDir c hp ho]
  obtain ⟨j, f, r, o⟩ := e
  obtain ⟨h1, h2, h3⟩ := hg
  cases h1
  cases h2
  cases custom with
  | some d => exact ⟨_, rfl, by dsimp only; rw [hl d (hc d rfl)]⟩
  | none =>
    rcases h3 with h3 | ⟨h3, h4⟩
    · cases h3
    · cases h3
      cases o with
      | none => cases h4
      | some d => exact ⟨_, rfl, by dsimp only; rw [hl d (ho d rfl)]⟩

/-- C37: in all other settings the block does not compile to the file written, whatever the names,
unless AUTOCXX_RS_FILE happens to name it: the build script panics, the macro fails, the code is
that of an archive, or it is another file. -/
theorem macro_misses_file {τ : Type} (hash : Config → Nat) (parse : String → Option τ)
    (files : String → Option (Option MultiBindings)) {custom : Option String} {e : LocEnv}
    (cwd srcDir : List (List Char)) {c : Config} (hp : c.parseOnly = false)
    (ho : ∀ d, e.outDir = some d → absolute d = true)
    (hr : ∀ d, e.rs = some d → absolute d = true)
    (hg : ¬ GoodSetting custom e) {w : List (List Char)}
    (hw : (builderRsPath custom e c.rsFilename).map (locate cwd) = some w)
    (hm : macroReads hash parse files custom e srcDir c = some (.file w)) :
    ∃ f, e.rsFile = some f ∧ e.jsonArchive = none ∧ custom.isSome = true ∧
      w = locate srcDir f := by
  rw [builder_writes] at hw
  rw [macro_reads hash parse files custom e srcDir c hp ho] at hm
  obtain ⟨j, f, r, o⟩ := e
  cases j with
  | some l =>
    dsimp only at hm
    cases h : archiveBindings hash parse files l c with
    | none => rw [h] at hm; cases hm
    | some t => rw [h] at hm; cases hm
  | none =>
    cases f with
    | some f =>
      cases custom with
      | none => cases hw
      | some d => exact ⟨f, rfl, rfl, rfl, (Compiled.file.inj (Option.some.inj hm)).symm⟩
    | none =>
      cases custom with
      | some d => exact absurd ⟨rfl, rfl, .inl rfl⟩ hg
      | none =>
        cases r with
        | some d =>
          have h1 := Option.some.inj hw
          have h2 := Compiled.file.inj (Option.some.inj hm)
          rw [← h1] at h2
          have h3 := congrArg List.length h2
          have : locate srcDir d = locate cwd d := by
            unfold locate; rw [if_pos (hr d rfl), if_pos (hr d rfl)]
          rw [this] at h3
          simp at h3
        | none =>
          cases o with
          | none => cases hw
          | some d => exact absurd ⟨rfl, rfl, .inr ⟨rfl, rfl⟩⟩ hg

/-- C37: the settings in which the build script or the macro fails explicitly: no directory at all,
or a file or an archive named without a custom directory. -/
theorem builder_fails_iff (custom : Option String) (e : LocEnv) (fname : String) :
    builderRsPath custom e fname = none ↔
      custom = none ∧ (e.jsonArchive.isSome = true ∨ e.rsFile.isSome = true ∨
        (e.rs = none ∧ e.outDir = none)) := by
  obtain ⟨j, f, r, o⟩ := e
  cases custom <;> cases j <;> cases f <;> cases r <;> cases o <;>
    simp [builderRsPath, builderStrategy, Strategy.new, Strategy.rsDir, Strategy.genDir]

/-- C37 is false when AUTOCXX_RS is set for the build script: whatever the directory and the block,
the code is written to its `rs` directory but read from the directory itself. -/
theorem autocxx_rs_false {τ : Type} (hash : Config → Nat) (parse : String → Option τ)
    (files : String → Option (Option MultiBindings)) (d : String) (o : Option String)
    (cwd srcDir : List (List Char)) {c : Config} (hp : c.parseOnly = false)
    (ho : ∀ d, o = some d → absolute d = true) (hd : absolute d = true) :
    ∃ w r, (builderRsPath none ⟨none, none, some d, o⟩ c.rsFilename).map (locate cwd) = some w ∧
      macroReads hash parse files none ⟨none, none, some d, o⟩ srcDir c = some (.file r) ∧
      w ≠ r := by
  rw [builder_writes, macro_reads hash parse files none _ srcDir c hp ho]
  refine ⟨_, _, rfl, rfl, ?_⟩
  have : locate srcDir d = locate cwd d := by unfold locate; rw [if_pos hd, if_pos hd]
  rw [this]
  intro h
  have := congrArg List.length h
  simp at this

/-- C37 is false for a relative custom directory: it is relative to the package for the build script
but to the source file for the macro. -/
theorem relative_custom_false :
    ∃ w r, (builderRsPath (some "gen") {} ({} : Config).rsFilename).map (locate [['p']]) = some w ∧
      macroReads (τ := Nat) (fun _ => 0) (fun _ => none) (fun _ => none) (some "gen") {}
        [['p'], ['s', 'r', 'c']] {} = some (.file r) ∧ w ≠ r := by
  rw [builder_writes, macro_reads _ _ _ _ _ _ _ rfl (by simp)]
  refine ⟨_, _, rfl, rfl, ?_⟩
  have hg : locate [['p']] "gen" = [['p'], ['g', 'e', 'n']] := by
    unfold locate
    rw [if_neg (by decide), pathNames_name (by decide) (by decide)]
    rfl
  have hg' : locate [['p'], ['s', 'r', 'c']] "gen" = [['p'], ['s', 'r', 'c'], ['g', 'e', 'n']] := by
    unfold locate
    rw [if_neg (by decide), pathNames_name (by decide) (by decide)]
    rfl
  rw [hg, hg']
  intro h
  have := congrArg List.length h
  simp at this

/-- C37 is false when an empty output directory is given: the build script takes it as the current
directory, and the macro as the root. -/
theorem empty_outDir_false :
    ∃ w r, (builderRsPath none { outDir := some "" } ({} : Config).rsFilename).map
        (locate [['p']]) = some w ∧
      macroReads (τ := Nat) (fun _ => 0) (fun _ => none) (fun _ => none) none
        { outDir := some "" } [['p']] {} = some (.file r) ∧ w ≠ r := by
  rw [builder_writes]
  refine ⟨_, _, rfl, rfl, ?_⟩
  intro h
  have h1 : locate [['p']] "" = [['p']] := by
    unfold locate
    rw [if_neg (by decide)]
    show [['p']] ++ pathNames [] = _
    rw [pathNames_nil]; rfl
  rw [h1] at h
  have e : "" ++ ("/autocxx-build-dir/rs/" ++ ({} : Config).rsFilename) =
      String.ofList ('/' :: ("autocxx-build-dir".toList ++ '/' :: ("rs".toList ++ '/' ::
        ({} : Config).rsFilename.toList))) := by
    apply String.toList_inj.1
    rw [String.toList_append, String.toList_append, String.toList_ofList, String.toList_ofList,
      String.toList_ofList]
    rfl
  have hh := congrArg List.head? h
  rw [show ("" ++ ("/autocxx-build-dir/rs/" ++ ({} : Config).rsFilename)) = _ from e] at hh
  unfold locate at hh
  rw [if_pos (absolute_iff.2 ⟨_, String.toList_ofList⟩), String.toList_ofList, pathNames_slash,
    pathNames_slash_append, names_build] at hh
  revert hh
  decide

/-- C37: a block for parsing only compiles to nothing in every setting. -/
theorem parse_only_reads {τ : Type} (hash : Config → Nat) (parse : String → Option τ)
    (files : String → Option (Option MultiBindings)) (custom : Option String) (e : LocEnv)
    (srcDir : List (List Char)) (c : Config) (hp : c.parseOnly = true) :
    macroReads hash parse files custom e srcDir c = some .empty := by
  unfold macroReads generateRs
  rw [if_pos hp]
  rfl

/-- C37, for the command-line generator, which writes the file into its output directory (see
`OutFiles`): with AUTOCXX_RS set to that directory, the macro reads it. -/
theorem macro_finds_generated {τ : Type} (hash : Config → Nat) (parse : String → Option τ)
    (files : String → Option (Option MultiBindings)) {d : String} (o : Option String)
    (cwd srcDir : List (List Char)) {c : Config} (hp : c.parseOnly = false)
    (ho : ∀ d, o = some d → absolute d = true) (hd : absolute d = true) :
    macroReads hash parse files none ⟨none, none, some d, o⟩ srcDir c =
      some (.file (locate cwd (joinPath d c.rsFilename))) := by
  rw [macro_reads hash parse files none _ srcDir c hp ho, locate_join (fname_relative c)]
  have : locate srcDir d = locate cwd d := by unfold locate; rw [if_pos hd, if_pos hd]
  dsimp only
  rw [this]

/-- A real setting. -/
example : ∃ w, (builderRsPath none { outDir := some "/target/out" } "autocxx-ffi-default-gen.rs") =
    some w ∧ w = "/target/out/autocxx-build-dir/rs/autocxx-ffi-default-gen.rs" :=
  ⟨_, rfl, by decide⟩

example : GoodSetting none { outDir := some "/target/out" } ∧
    ∀ d, ({ outDir := some "/target/out" } : LocEnv).outDir = some d → absolute d = true :=
  ⟨⟨rfl, rfl, .inr ⟨rfl, rfl⟩⟩, by intro d h; cases h; decide⟩

/-! ## C38 -/

/-- What an archive has for a configuration: the last bindings archived for one with its hash. -/
theorem archive_get {τ : Type} (hash : Config → Nat) (print : τ → String) (l : List (Config × τ))
    (h : Nat) : AMap.get? (rsArchive hash print l) h =
      (l.reverse.find? fun x => hash x.1 = h).map fun x => print x.2 := by
  have key : ∀ (l : List (Config × τ)) (m : MultiBindings),
      AMap.get? (l.foldl (fun m x => MultiBindings.insert hash print m x.1 x.2) m) h =
        ((l.reverse.find? fun x => hash x.1 = h).map fun x => print x.2).or (AMap.get? m h) := by
    intro l
    induction l with
    | nil => intro m; simp
    | cons x r ih =>
      intro m
      rw [List.foldl_cons, ih, List.reverse_cons, List.find?_append]
      cases hr : r.reverse.find? fun x => hash x.1 = h with
      | some y => simp
      | none =>
        simp only [Option.map_none, Option.none_or, MultiBindings.insert, AMap.get?_insert]
        by_cases hx : hash x.1 = h
        · simp [hx]
        · simp [hx]
  have := key l []
  rw [rsArchive, this]
  cases (l.reverse.find? fun x => decide (hash x.1 = h)) <;> rfl

/-- C38: a block which was not archived gets an error, and only such a block gets this error. -/
theorem archive_missing_iff {τ : Type} (hash : Config → Nat) (print : τ → String)
    (parse : String → Option τ) (l : List (Config × τ)) (c : Config) :
    MultiBindings.get hash parse (rsArchive hash print l) c = .error .missing ↔
      ∀ x ∈ l, hash x.1 ≠ hash c := by
  unfold MultiBindings.get
  rw [archive_get]
  cases hf : l.reverse.find? fun x => hash x.1 = hash c with
  | none =>
    simp only [Option.map_none, true_iff]
    intro x hx
    simpa using List.find?_eq_none.1 hf x (List.mem_reverse.2 hx)
  | some y =>
    have h1 : hash y.1 = hash c := by simpa using List.find?_some hf
    have h2 := List.mem_reverse.1 (List.mem_of_find?_eq_some hf)
    simp only [Option.map_some]
    constructor
    · intro h
      exfalso
      split at h <;> cases h
    · intro h; exact absurd h1 (h y h2)

/-- C38: a block whose configuration was archived gets its own bindings back, provided that they
print as Rust, that no other configuration has its hash, and that it was archived once. -/
theorem archive_finds {τ : Type} (hash : Config → Nat) (print : τ → String)
    (parse : String → Option τ) (l : List (Config × τ)) {c : Config} {t : τ}
    (hm : (c, t) ∈ l) (hp : parse (print t) = some t)
    (hu : ∀ x ∈ l, hash x.1 = hash c → x = (c, t)) :
    MultiBindings.get hash parse (rsArchive hash print l) c = .ok t := by
  unfold MultiBindings.get
  rw [archive_get]
  cases hf : l.reverse.find? fun x => hash x.1 = hash c with
  | none =>
    have := List.find?_eq_none.1 hf (c, t) (List.mem_reverse.2 hm)
    simp at this
  | some y =>
    have h1 : hash y.1 = hash c := by simpa using List.find?_some hf
    have h2 := List.mem_reverse.1 (List.mem_of_find?_eq_some hf)
    rw [hu y h2 h1]
    simp only [Option.map_some, hp]

/-- What the archive is made of: the configurations of the engines after generating, and their
code. An engine which has not generated panics. -/
def archived {ρ : Type} : List (Engine ρ) → Option (List (Config × Option ρ))
  | [] => some []
  | e :: r =>
    match e.getRsOutput (ε := GenErr) with
    | .ok x => (archived r).map (x :: ·)
    | _ => none

/-- C38 is false for a block which gives no allowlist: whatever the hash, as long as it tells
configurations apart, the generator archives its bindings under the hash of the configuration it has
completed, and the macro looks for the configuration as written. -/
theorem archive_misses_false (hash : Config → Nat) (hash_inj : ∀ a b, hash a = hash b → a = b)
    (print : Option Nat → String) (parse : String → Option (Option Nat)) :
    ∃ (segs : List (Segment Nat String)) (segs' : List (Segment Nat String)) (found : List Ident)
      (l : List (Config × Option Nat)) (c : Config),
      parseFile exSearch false [.macroCall ["include_cpp"] [] "block"] = .ok segs ∧
      resolveAll true hash (fun _ => some 1) [] segs = .ok (segs', found) ∧
      archived (segEngines segs') = some l ∧ l.length = 1 ∧
      parseConfig [] = .ok c ∧
      MultiBindings.get hash parse (rsArchive hash print l) c = .error .missing := by
  refine ⟨[.autocxx ⟨({} : Config).confirmComplete, .notGenerated⟩],
    [.autocxx ⟨({} : Config).confirmComplete, .generated 1⟩], ["ffi"],
    [(({} : Config).confirmComplete, some 1)], {}, ?_, ?_, ?_, rfl, parse_empty_body, ?_⟩
  · simp [parseFile, parseItems, parseItem, parse_empty_body, FileState.empty,
      handleDiscovered, mustHandle, Discoveries.foundRust, Call.bind, confirmTop, Engine.ofConfig]
  · rfl
  · rfl
  · rw [archive_missing_iff]
    intro x hx he
    rw [List.mem_singleton] at hx
    subst hx
    have h := congrArg Config.allowlist (hash_inj _ _ he)
    cases h

/-- A block's configuration with a function discovered in its file. -/
def exGiven : Config :=
  { allowlist := .specific [.item "A"]
    externRustFuns := [⟨["m", "f"], ⟨"f", "()", none⟩, false⟩] }

/-- C38 is false for a block which is given something discovered in its file. -/
theorem archive_misses_discovered_false (hash : Config → Nat)
    (hash_inj : ∀ a b, hash a = hash b → a = b)
    (print : Option Nat → String) (parse : String → Option (Option Nat)) :
    ∃ (segs : List (Segment Nat String)) (segs' : List (Segment Nat String)) (found : List Ident)
      (l : List (Config × Option Nat)) (c : Config),
      parseFile exSearch false [.macroCall ["include_cpp"]
        [.ident "generate", .bang, .paren [.lit "A"]] "block", .other "fn"] = .ok segs ∧
      resolveAll true hash (fun _ => some 1) [] segs = .ok (segs', found) ∧
      archived (segEngines segs') = some l ∧ l.length = 1 ∧
      parseConfig [.ident "generate", .bang, .paren [.lit "A"]] = .ok c ∧
      MultiBindings.get hash parse (rsArchive hash print l) c = .error .missing := by
  refine ⟨[.autocxx ⟨exGiven, .notGenerated⟩, .other], [.autocxx ⟨exGiven, .generated 1⟩, .other],
    ["ffi"], [(exGiven, some 1)], _, ?_, ?_, ?_, rfl, parse_generate_body, ?_⟩
  · simp [parseFile, parseItems, parseItem, parse_generate_body, FileState.empty, exSearch,
      Discoveries.extend, handleDiscovered, mustHandle, Discoveries.foundRust,
      FileState.searchOther, Call.bind, topEngines, attach, Config.confirmComplete,
      Engine.ofConfig, Engine.configMut, updateFirst, confirmTop, exGiven]
  · rfl
  · rfl
  · rw [archive_missing_iff]
    intro x hx he
    rw [List.mem_singleton] at hx
    subst hx
    have h := congrArg Config.externRustFuns (hash_inj _ _ he)
    cases h

theorem generate_config {ρ : Type} {nightly : Bool} {hash : Config → Nat} {conv : Config → Option ρ}
    {e e' : Engine ρ} (h : e.generate nightly hash conv = .ok e') :
    e'.config = e.config ∧ (e.state = .parseOnly → e' = e) ∧
      (e.state = .notGenerated → ∃ r, conv e.config = some r ∧ e'.state = .generated r) := by
  rcases generate_ok_iff.1 h with ⟨h1, rfl⟩ | ⟨h1, _, _, r, h2, rfl⟩
  · exact ⟨rfl, fun _ => rfl, fun h3 => by rw [h1] at h3; cases h3⟩
  · exact ⟨rfl, fun h3 => (by rw [h1] at h3; cases h3), fun _ => ⟨r, h2, rfl⟩⟩

theorem generate_done {ρ : Type} {nightly : Bool} {hash : Config → Nat} {conv : Config → Option ρ}
    {e e' : Engine ρ} (h : e.generate nightly hash conv = .ok e') : e'.state ≠ .notGenerated := by
  rcases generate_ok_iff.1 h with ⟨h1, rfl⟩ | ⟨_, _, _, r, _, rfl⟩
  · rw [h1]; simp
  · simp

/-- C38: the archive is that of all engines of a generated file, in order, and can always be made. -/
theorem archived_all {ρ : Type} (l : List (Engine ρ))
    (h : ∀ e ∈ l, e.state ≠ .notGenerated) :
    archived l = some (l.map fun e => (e.config, match e.state with
      | .generated r => some r
      | _ => none)) := by
  induction l with
  | nil => rfl
  | cons e r ih =>
    rw [archived, ih fun e he => h e (List.mem_cons_of_mem _ he)]
    have he := h e List.mem_cons_self
    obtain ⟨c, s⟩ := e
    cases s with
    | notGenerated => exact absurd rfl he
    | parseOnly => rfl
    | generated x => rfl

/-- A block whose configuration the generator leaves as it was written: nested, or at the top with a
decided allowlist. -/
def Untouched {α : Type} (x : Found α) : Prop :=
  ∀ body, x = .block true body → ∀ c, parseConfig body = .ok c → c.confirmComplete = c

/-- C38: if nothing is discovered in a file and its blocks give their allowlists, then after the file
is generated and archived with those of any other files, every block of it which is not for parsing
only finds its own bindings: what was generated from its configuration. -/
theorem archive_finds_blocks_partial {ρ α : Type} {search : Search α} {auto : Bool}
    {items : List (FileItem α)} {segs segs' : List (Segment ρ α)} {nightly : Bool}
    {hash : Config → Nat} {conv : Config → Option ρ} {found : List Ident}
    (print : Option ρ → String) (parse : String → Option (Option ρ))
    (round : ∀ t, parse (print t) = some t)
    {st : FileState ρ α} (hst : parseItems search auto none FileState.empty items = .ok st)
    (hm : mustHandle auto st = false) (hu : ∀ x ∈ itemsBlocks true items, Untouched x)
    (hp : parseFile search auto items = .ok segs)
    (hr : resolveAll nightly hash conv [] segs = .ok (segs', found))
    (others others' : List (Config × Option ρ))
    {top : Bool} {body : List Tok} (hb : Found.block top body ∈ itemsBlocks true items)
    {c : Config} (hc : parseConfig body = .ok c) (ho : c.parseOnly = false) :
    ∃ l r, archived (segEngines segs') = some l ∧ conv c = some r ∧
      ((∀ x ∈ others ++ l ++ others', hash x.1 = hash c → x = (c, some r)) →
        MultiBindings.get hash parse (rsArchive hash print (others ++ l ++ others')) c =
          .ok (some r)) := by
  obtain ⟨st1, hst1, h1, _⟩ := parse_file_blocks hp
  rw [hst] at hst1
  cases hst1
  have hpl := resolve_all_places hr
  obtain ⟨p, hpm, hpb⟩ := (h1 hm).left hb
  have hpe : p = .engine top ⟨c, .notGenerated⟩ := by
    have hs : (Engine.ofConfig c : Engine ρ).state = .notGenerated := by simp [Engine.ofConfig, ho]
    cases hpb with
    | top h he =>
      rw [hc] at h
      cases h
      rw [he, hu _ hb body rfl c hc, hs]
    | nested h =>
      rw [hc] at h
      cases h
      rw [← hs]
      rfl
  subst hpe
  obtain ⟨q, hqm, hq⟩ := hpl.left hpm
  cases hq with
  | @engine _ _ e' hg =>
    obtain ⟨g1, _, g3⟩ := generate_config hg
    obtain ⟨r, hr1, hr2⟩ := g3 rfl
    have hall : ∀ e ∈ segEngines segs', e.state ≠ .notGenerated := by
      intro e he
      rw [segEngines_placed true] at he
      obtain ⟨q, hq1, hq2⟩ := List.mem_filterMap.1 he
      obtain ⟨p', _, hp'⟩ := hpl.right hq1
      cases hp' with
      | engine hg' => cases hq2; exact generate_done hg'
      | bridge => cases hq2
    refine ⟨_, r, archived_all _ hall, hr1, fun hx => ?_⟩
    refine archive_finds hash print parse _ ?_ (round _) hx
    refine List.mem_append_left _ (List.mem_append_right _ (List.mem_map.2 ⟨e', ?_, ?_⟩))
    · rw [segEngines_placed true]
      exact List.mem_filterMap.2 ⟨_, hqm, rfl⟩
    · rw [hr2, g1]

/-- The hypotheses hold of a file with one block. -/
example : parseItems exSearch false none (FileState.empty : FileState Nat String)
      [.macroCall ["include_cpp"] [.ident "generate", .bang, .paren [.lit "A"]] "block"] =
      .ok ⟨[.autocxx (Engine.ofConfig { allowlist := .specific [.item "A"] })], [], {}⟩ ∧
    mustHandle (ρ := Nat) (α := String) false
      ⟨[.autocxx (Engine.ofConfig { allowlist := .specific [.item "A"] })], [], {}⟩ = false ∧
    ({ allowlist := .specific [.item "A"] } : Config).confirmComplete =
      { allowlist := .specific [.item "A"] } := by
  refine ⟨?_, rfl, rfl⟩
  simp [parseItems, parseItem, parse_generate_body, FileState.empty]

/-- Two blocks archived under different hashes, and a third one which was not. -/
example (print : Nat → String) (parse : String → Option Nat) (hp : ∀ n, parse (print n) = some n) :
    MultiBindings.get (fun c => c.inclusions.length) parse
      (rsArchive (fun c => c.inclusions.length) print
        [({ inclusions := ["a.h"] }, 1), ({ inclusions := ["a.h", "b.h"] }, 2)])
      { inclusions := ["a.h"] } = .ok 1 ∧
    MultiBindings.get (fun c => c.inclusions.length) parse
      (rsArchive (fun c => c.inclusions.length) print
        [({ inclusions := ["a.h"] }, 1), ({ inclusions := ["a.h", "b.h"] }, 2)]) {} =
      .error .missing := by
  constructor
  · exact archive_finds _ print parse _ (List.mem_cons_self) (hp 1) (by simp)
  · rw [archive_missing_iff]; simp

end Verif
