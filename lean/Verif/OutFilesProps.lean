import Verif.OutFiles

/-!
# Writing output files: conflicts, repeated builds, crashes

Properties C33, C35 and C36: what a sequence of writes does to a directory, for every directory,
every sequence and every behaviour of the operating system.
-/

set_option autoImplicit false

namespace Verif

/-! ## Specification -/

/-- The contents which a sequence of actions writes under one name, in order. -/
def contentsFor (name : String) : List Action → List String
  | [] => []
  | .write n c :: r => if n = name then c :: contentsFor name r else contentsFor name r
  | .fail _ :: r => contentsFor name r

/-- How often a file changes when these contents are written to it one after the other. -/
def changes : Option String → List String → Nat
  | _, [] => 0
  | c0, c :: r => (if c0 = some c then 0 else 1) + changes (some c) r

/-- What is in a file after these contents have been written to it one after the other. -/
def lastContent (c0 : Option String) (cs : List String) : Option String :=
  match cs.getLast? with
  | none => c0
  | some c => some c

/-- The names written to, in order. -/
def actionNames : List Action → List String
  | [] => []
  | .write n _ :: r => n :: actionNames r
  | .fail _ :: r => actionNames r

/-- The sequence contains no failure of its own. -/
def NoFail (acts : List Action) : Prop := ∀ e, Action.fail e ∉ acts

/-! ## One write -/

theorem record_some {rel : String → Option String} {w w' : Writer} {name : String}
    (h : w.record rel name = some w') :
    w'.files = w.files ∧ w'.touched = w.touched ∧ w'.written = w.written ∧
      w'.clock = w.clock + 1 ∧
      ((w.depfile = none ∧ w'.depfile = none) ∨
        ∃ d r, w.depfile = some d ∧ rel name = some r ∧
          w'.depfile = some { d with outputs := d.outputs ++ [r] }) := by
  unfold Writer.record at h
  cases hd : w.depfile with
  | none => rw [hd] at h; cases h; exact ⟨rfl, rfl, rfl, rfl, .inl ⟨rfl, rfl⟩⟩
  | some d =>
    rw [hd] at h
    simp only [Depfile.addOutput, Option.map_map, Option.map_eq_some_iff] at h
    obtain ⟨r, hr, rfl⟩ := h
    exact ⟨rfl, rfl, rfl, rfl, .inr ⟨d, r, rfl, hr, rfl⟩⟩

theorem put_self {f : Files} {name content : String} (h : f name = some content) :
    f.put name content = f := by
  funext n; simp only [Files.put]; split
  · next e => rw [e, h]
  · rfl

/-- A write which succeeds, whatever the operating system did. -/
theorem writeToFile_ok {io : Nat → Io} {rel : String → Option String} {w w' : Writer}
    {name content : String} (h : writeToFile io rel w name content = (w', none)) :
    w'.files = w.files.put name content ∧
      ((w.files name = some content ∧ w'.touched = w.touched ∧ w'.written = w.written) ∨
        (name ∉ w.written ∧ w'.touched = w.touched ++ [name] ∧
          w'.written = w.written ++ [name])) ∧
      ((w.depfile = none ∧ w'.depfile = none) ∨
        ∃ d r, w.depfile = some d ∧ rel name = some r ∧
          w'.depfile = some { d with outputs := d.outputs ++ [r] }) := by
  unfold writeToFile at h
  cases hr : w.record rel name with
  | none => rw [hr] at h; cases h
  | some w1 =>
    obtain ⟨hf, ht, hw, _, hd⟩ := record_some hr
    rw [hr] at h
    dsimp only at h
    split at h
    · next hc =>
      cases h
      simp only [Bool.and_eq_true, decide_eq_true_eq] at hc
      rw [hf] at hc
      exact ⟨by rw [put_self hc.2, hf], .inl ⟨hc.2, ht, hw⟩, hd⟩
    · split at h
      · cases h
      · split at h
        · cases h
        · split at h
          · cases h
          · next hn =>
            cases h
            simp only [Writer.put, hf, ht, hw] at hn ⊢
            exact ⟨trivial, .inr ⟨hn, trivial, trivial⟩, hd⟩

/-- The write when the operating system does everything asked of it. -/
theorem writeToFile_works {io : Nat → Io} {rel : String → Option String} {w : Writer}
    {name : String} (content : String) (hio : io w.clock = Io.works)
    (hrel : w.depfile = none ∨ (rel name).isSome) :
    (writeToFile io rel w name content).2 =
      (if w.files name = some content ∨ name ∉ w.written then none
        else some (.conflict name)) ∧
    (writeToFile io rel w name content).1.files = w.files.put name content ∧
    (writeToFile io rel w name content).1.clock = w.clock + 1 ∧
    ((writeToFile io rel w name content).1.depfile = none ↔ w.depfile = none) ∧
    (writeToFile io rel w name content).1.touched =
      (if w.files name = some content then w.touched else w.touched ++ [name]) := by
  have hs : ∃ w1, w.record rel name = some w1 := by
    unfold Writer.record
    cases hd : w.depfile with
    | none => exact ⟨_, rfl⟩
    | some d =>
      rcases hrel with hrel | hrel
      · rw [hd] at hrel; cases hrel
      · obtain ⟨r, hr⟩ := Option.isSome_iff_exists.1 hrel
        exact ⟨_, by simp [Depfile.addOutput, hr]; rfl⟩
  obtain ⟨w1, h1⟩ := hs
  obtain ⟨hf, ht, hw, hk, hd⟩ := record_some h1
  have hd' : w1.depfile = none ↔ w.depfile = none := by
    rcases hd with ⟨a, b⟩ | ⟨d, r, a, _, b⟩ <;> simp [a, b]
  unfold writeToFile
  simp only [h1, hio, Io.works, Bool.true_and, Bool.not_true, Bool.false_eq_true, if_false,
    decide_eq_true_eq, hf]
  by_cases hc : w.files name = some content
  · simp [hc, hf, hk, ht, hd', put_self hc]
  · simp only [if_neg hc, Writer.put, hw]
    by_cases hm : name ∈ w.written
    · simp [hm, hf, hk, ht, hd', hc]
    · simp [hm, hf, hk, ht, hd', hc]

/-! ## A sequence of writes -/

theorem runActions_noFail {io : Nat → Io} {rel : String → Option String} {w w' : Writer}
    {acts : List Action} (h : runActions io rel w acts = (w', none)) : NoFail acts := by
  induction acts generalizing w with
  | nil => intro e he; cases he
  | cons a r ih =>
    cases a with
    | fail e => cases h
    | write n c =>
      rw [runActions] at h
      split at h
      · cases h
      · intro e he
        rcases List.mem_cons.1 he with he | he
        · cases he
        · exact ih h e he

theorem put_apply (f : Files) (name content n : String) :
    f.put name content n = if n = name then some content else f n := rfl

/-- C36: a run which succeeds leaves every file with the content last asked for, and leaves every
other file alone; whatever was in the directory and whatever the operating system did. -/
theorem run_content {io : Nat → Io} {rel : String → Option String} {w w' : Writer}
    {acts : List Action} (h : runActions io rel w acts = (w', none)) (name : String) :
    w'.files name = lastContent (w.files name) (contentsFor name acts) := by
  induction acts generalizing w with
  | nil => cases h; rfl
  | cons a r ih =>
    cases a with
    | fail e => cases h
    | write n c =>
      rw [runActions] at h
      split at h
      · cases h
      · next w1 h1 =>
        rw [ih h, (writeToFile_ok h1).1, put_apply]
        simp only [contentsFor, eq_comm (a := name)]
        split
        · simp only [lastContent, List.getLast?_cons]
          cases (contentsFor name r).getLast? <;> rfl
        · rfl

/-- C35, the part of it which holds: when a run succeeds, then once a file has been changed
everything written under its name afterwards was the same content. So if the first content
differs from what an earlier run left, or there was no such file, all contents were equal. -/
theorem conflict_refused_partial {io : Nat → Io} {rel : String → Option String} {w w' : Writer}
    {acts : List Action} (h : runActions io rel w acts = (w', none)) (name : String) :
    changes (w.files name) (contentsFor name acts) +
      (if name ∈ w.written then 1 else 0) ≤ 1 := by
  induction acts generalizing w with
  | nil => simp only [contentsFor, changes]; split <;> omega
  | cons a r ih =>
    cases a with
    | fail e => cases h
    | write n c =>
      rw [runActions] at h
      split at h
      · cases h
      · next w1 h1 =>
        obtain ⟨hf, hc, _⟩ := writeToFile_ok h1
        have := ih h
        rw [hf, put_apply] at this
        simp only [contentsFor]
        by_cases hn : n = name
        · subst hn
          rw [if_pos rfl] at this ⊢
          simp only [changes]
          rcases hc with ⟨hs, _, hw⟩ | ⟨hs, _, hw⟩
          · rw [hw] at this; rw [if_pos hs]; omega
          · rw [hw] at this
            simp only [List.mem_append, List.mem_singleton, or_true, if_true] at this
            rw [if_neg hs]
            split <;> omega
        · rw [if_neg hn]
          rw [if_neg (fun e => hn e.symm)] at this
          rcases hc with ⟨hs, _, hw⟩ | ⟨hs, _, hw⟩
          · rw [hw] at this; exact this
          · rw [hw] at this
            have he : (name ∈ w.written ++ [n]) ↔ name ∈ w.written := by
              simp only [List.mem_append, List.mem_singleton, or_iff_left_iff_imp]
              exact fun e => absurd e.symm hn
            simpa only [he] using this

theorem changes_zero {c0 : Option String} {cs : List String} (h : changes c0 cs = 0) :
    ∀ c ∈ cs, c0 = some c := by
  induction cs generalizing c0 with
  | nil => intro c hc; cases hc
  | cons a r ih =>
    simp only [changes] at h
    have h0 : c0 = some a := by
      by_cases he : c0 = some a
      · exact he
      · rw [if_neg he] at h; omega
    intro c hc
    rcases List.mem_cons.1 hc with rfl | hc
    · exact h0
    · rw [h0]
      exact ih (by rw [if_pos h0] at h; omega) c hc

/-- C35: two different contents under a name which was not there before are refused. -/
theorem fresh_conflict_refused {io : Nat → Io} {rel : String → Option String} {w w' : Writer}
    {acts : List Action} (h : runActions io rel w acts = (w', none)) {name : String}
    (hfresh : w.files name = none) {a b : String} (ha : a ∈ contentsFor name acts)
    (hb : b ∈ contentsFor name acts) : a = b := by
  have hc := conflict_refused_partial h name
  rw [hfresh] at hc
  cases hcs : contentsFor name acts with
  | nil => rw [hcs] at ha; cases ha
  | cons c r =>
    rw [hcs] at hc ha hb
    simp only [changes, reduceCtorEq, if_false] at hc
    have hz := changes_zero (c0 := some c) (cs := r) (by omega)
    have key : ∀ x ∈ c :: r, x = c := by
      intro x hx
      rcases List.mem_cons.1 hx with rfl | hx
      · rfl
      · exact (Option.some.inj (hz x hx)).symm
    rw [key a ha, key b hb]

/-- C35, exactly: when the operating system works, a run fails precisely if it contains a failure
of its own or makes some file change twice. -/
theorem run_ok_iff {io : Nat → Io} {rel : String → Option String} {w : Writer}
    {acts : List Action} (hio : ∀ k, io k = Io.works)
    (hrel : w.depfile = none ∨ ∀ n ∈ actionNames acts, (rel n).isSome) :
    (runActions io rel w acts).2 = none ↔
      NoFail acts ∧ ∀ name, changes (w.files name) (contentsFor name acts) +
        (if name ∈ w.written then 1 else 0) ≤ 1 := by
  constructor
  · intro h
    have h' : runActions io rel w acts = ((runActions io rel w acts).1, none) := by
      rw [← h]
    exact ⟨runActions_noFail h', conflict_refused_partial h'⟩
  · intro ⟨hnf, h⟩
    induction acts generalizing w with
    | nil => rfl
    | cons a r ih =>
      cases a with
      | fail e => exact absurd (by simp) (hnf e)
      | write n c =>
        have hw := writeToFile_works c (hio w.clock) (rel := rel) (w := w) (name := n)
          (hrel.imp id fun hr => hr n (by simp [actionNames]))
        have hn := h n
        simp only [contentsFor, if_pos, changes] at hn
        have hok : w.files n = some c ∨ n ∉ w.written := by
          by_cases h1 : w.files n = some c
          · exact .inl h1
          · right; intro h2; rw [if_neg h1, if_pos h2] at hn; omega
        rw [if_pos hok] at hw
        obtain ⟨h2, hf, hk, hd, _⟩ := hw
        rw [runActions]
        cases hres : writeToFile io rel w n c with
        | mk w1 o =>
        rw [hres] at h2 hf hk hd
        dsimp only at h2 hf hk hd
        subst h2
        dsimp only
        refine ih ?_ (fun e he => hnf e (List.mem_cons_of_mem _ he)) ?_
        · rcases hrel with hrel | hrel
          · exact .inl (hd.2 hrel)
          · exact .inr fun m hm => hrel m (by simp [actionNames, hm])
        · intro name
          have hname := h name
          obtain ⟨_, hcase, _⟩ := writeToFile_ok hres
          rw [hf, put_apply]
          by_cases he : n = name
          · subst he
            simp only [contentsFor, if_pos, changes] at hname
            rw [if_pos rfl]
            rcases hcase with ⟨hs, _, hwr⟩ | ⟨hs, _, hwr⟩
            · rw [hwr]; omega
            · by_cases hc : w.files n = some c
              · have hcr : writeToFile io rel w n c = (w1, none) := hres
                have : w1.touched = w.touched := by
                  have ht := (writeToFile_works c (hio w.clock) (rel := rel) (w := w) (name := n)
                    (hrel.imp id fun hr => hr n (by simp [actionNames]))).2.2.2.2
                  rw [hres, if_pos hc] at ht; exact ht
                have hl : w1.touched = w.touched ++ [n] := by
                  rcases writeToFile_ok hres with ⟨_, ⟨_, ht, hw'⟩ | ⟨_, ht, _⟩, _⟩
                  · rw [hwr] at hw'
                    exact absurd (congrArg List.length hw') (by simp)
                  · exact ht
                rw [this] at hl
                exact absurd (congrArg List.length hl) (by simp)
              · rw [if_neg hc] at hname
                rw [hwr]
                split at hname <;> split <;> omega
          · simp only [contentsFor, if_neg he] at hname
            rw [if_neg (fun e => he e.symm)]
            rcases hcase with ⟨hs, _, hwr⟩ | ⟨hs, _, hwr⟩
            · rw [hwr]; exact hname
            · rw [hwr]
              have hm : (name ∈ w.written ++ [n]) ↔ name ∈ w.written := by
                simp only [List.mem_append, List.mem_singleton, or_iff_left_iff_imp]
                exact fun e => absurd e.symm he
              simpa only [hm] using hname

/-! ## Nothing is touched without need -/

/-- C36: a file to which only the content it has already is written is not modified. -/
theorem untouched {io : Nat → Io} {rel : String → Option String} {w : Writer}
    {acts : List Action} (hio : ∀ k, io k = Io.works)
    (hsame : ∀ name, changes (w.files name) (contentsFor name acts) = 0) :
    (runActions io rel w acts).1.touched = w.touched ∧
      (runActions io rel w acts).1.files = w.files := by
  induction acts generalizing w with
  | nil => exact ⟨rfl, rfl⟩
  | cons a r ih =>
    cases a with
    | fail e => exact ⟨rfl, rfl⟩
    | write n c =>
      have h0 := hsame n
      simp only [contentsFor, if_pos, changes] at h0
      have hc : w.files n = some c := by
        by_cases hc : w.files n = some c
        · exact hc
        · rw [if_neg hc] at h0; omega
      rw [runActions]
      cases hr : w.record rel n with
      | none =>
        have : writeToFile io rel w n c = (w, some .relativize) := by
          unfold writeToFile; simp [hr]
        rw [this]; exact ⟨rfl, rfl⟩
      | some w1 =>
        obtain ⟨hf, ht, hw, _, _⟩ := record_some hr
        have : writeToFile io rel w n c = (w1, none) := by
          unfold writeToFile; simp [hr, hio, Io.works, hf, hc]
        rw [this]
        dsimp only
        have hi := ih (w := w1) (by
          intro name
          have hn := hsame name
          rw [hf]
          simp only [contentsFor] at hn
          split at hn
          · next e => subst e; simp only [changes] at hn; rw [hc] at hn ⊢; simpa using hn
          · exact hn)
        rw [ht, hf] at hi
        exact hi

/-- Every name is written with only one content. -/
def Consistent (acts : List Action) : Prop :=
  ∀ name, ∀ a ∈ contentsFor name acts, ∀ b ∈ contentsFor name acts, a = b

theorem changes_const {c : String} {cs : List String} (h : ∀ x ∈ cs, x = c) :
    changes (some c) cs = 0 := by
  induction cs with
  | nil => rfl
  | cons a r ih =>
    have : a = c := h a (by simp)
    subst this
    simp only [changes, if_pos]
    rw [ih fun x hx => h x (by simp [hx])]

theorem Consistent.changes_le {acts : List Action} (h : Consistent acts) (c0 : Option String)
    (name : String) : changes c0 (contentsFor name acts) ≤ 1 := by
  have := h name
  cases hcs : contentsFor name acts with
  | nil => simp [changes]
  | cons c r =>
    rw [hcs] at this
    simp only [changes]
    rw [changes_const (c := c) (cs := r) fun x hx => this x (by simp [hx]) c (by simp)]
    split <;> omega

/-- C35: a run in which every name has one content never meets a conflict, whatever was in the
directory before. -/
theorem consistent_ok {io : Nat → Io} {rel : String → Option String} {files : Files}
    {dep : Option Depfile} {acts : List Action} (hio : ∀ k, io k = Io.works)
    (hrel : dep = none ∨ ∀ n ∈ actionNames acts, (rel n).isSome) (hnf : NoFail acts)
    (hc : Consistent acts) :
    (runActions io rel (Writer.start files dep) acts).2 = none := by
  rw [run_ok_iff hio hrel]
  exact ⟨hnf, fun name => by simpa [Writer.start] using hc.changes_le (files name) name⟩

theorem lastContent_const {acts : List Action} (hc : Consistent acts) {name c : String}
    (hm : c ∈ contentsFor name acts) (c0 : Option String) :
    lastContent c0 (contentsFor name acts) = some c := by
  cases hg : (contentsFor name acts).getLast? with
  | none => rw [List.getLast?_eq_none_iff] at hg; rw [hg] at hm; cases hm
  | some x =>
    simp only [lastContent, hg]
    rw [hc name x (List.mem_of_getLast? hg) c hm]

/-- C36: repeating a successful run with the same input modifies nothing. The run may have met any
directory and any behaviour of the operating system before; the repetition succeeds if that
works. -/
theorem rerun_untouched {io io' : Nat → Io} {rel : String → Option String} {w w' : Writer}
    {dep : Option Depfile} {acts : List Action}
    (h : runActions io rel w acts = (w', none)) (hc : Consistent acts)
    (hio : ∀ k, io' k = Io.works)
    (hrel : dep = none ∨ ∀ n ∈ actionNames acts, (rel n).isSome) :
    let again := runActions io' rel (Writer.start w'.files dep) acts
    again.2 = none ∧ again.1.touched = [] ∧ again.1.files = w'.files := by
  have hz : ∀ name, changes (w'.files name) (contentsFor name acts) = 0 := by
    intro name
    rw [run_content h name]
    cases hcs : contentsFor name acts with
    | nil => rfl
    | cons c r =>
      rw [← hcs, lastContent_const hc (c := c) (by simp [hcs])]
      exact changes_const fun x hx => hc name x hx c (by simp [hcs])
  have hu := untouched (rel := rel) (w := Writer.start w'.files dep) (acts := acts) hio hz
  exact ⟨consistent_ok hio hrel (runActions_noFail h) hc, hu.1, hu.2⟩

/-- C36, crashes: whatever happened in an earlier run (it may have stopped anywhere, with files
half written), running again when the operating system works gives the same directory as a run
that was never disturbed, as far as the files of this run are concerned. -/
theorem run_after_crash {io io' : Nat → Io} {rel : String → Option String} {w : Writer}
    {crashed acts : List Action} (hio : ∀ k, io' k = Io.works) (hnf : NoFail acts)
    (hc : Consistent acts) (name c : String) (hm : c ∈ contentsFor name acts) :
    let left := (runActions io rel w crashed).1.files
    let again := runActions io' rel (Writer.start left none) acts
    again.2 = none ∧ again.1.files name = some c := by
  intro left again
  have hok : again.2 = none := consistent_ok hio (.inl rfl) hnf hc
  refine ⟨hok, ?_⟩
  have he : again = (again.1, none) := by rw [← hok]
  rw [run_content (w := Writer.start left none) he name, lastContent_const hc hm]

/-! ## The depfile -/

/-- C33: after a run which succeeded, the depfile has an entry for every file written, in the
order of the writes, and its dependencies are untouched by that. -/
theorem run_depfile {io : Nat → Io} {rel : String → Option String} {w w' : Writer}
    {acts : List Action} {d : Depfile} (h : runActions io rel w acts = (w', none))
    (hd : w.depfile = some d) :
    ∃ d', w'.depfile = some d' ∧ d'.dependencies = d.dependencies ∧
      ∃ outs, d'.outputs = d.outputs ++ outs ∧ (actionNames acts).map rel = outs.map some := by
  induction acts generalizing w d with
  | nil => cases h; exact ⟨d, hd, rfl, [], by simp, rfl⟩
  | cons a r ih =>
    cases a with
    | fail e => cases h
    | write n c =>
      rw [runActions] at h
      split at h
      · cases h
      · next w1 h1 =>
        rcases (writeToFile_ok h1).2.2 with ⟨h0, _⟩ | ⟨d0, o, h0, ho, h2⟩
        · rw [hd] at h0; cases h0
        · rw [hd] at h0
          cases h0
          obtain ⟨d', e1, e2, outs, e3, e4⟩ := ih h h2
          exact ⟨d', e1, e2, o :: outs, by simp [e3], by simp [actionNames, ho, e4]⟩

/-- Something recorded in a depfile. -/
inductive DepEvent where
  | dependency (path : String)
  | output (path : String)

/-- Any sequence of recordings. -/
def Depfile.recordEvents (rel : String → Option String) (d : Depfile) :
    List DepEvent → Option Depfile
  | [] => some d
  | .dependency p :: r => (d.addDependency rel p).bind fun d => d.recordEvents rel r
  | .output p :: r => (d.addOutput rel p).bind fun d => d.recordEvents rel r

def DepEvent.isDep : DepEvent → Option String
  | .dependency p => some p
  | .output _ => none

def DepEvent.isOut : DepEvent → Option String
  | .dependency _ => none
  | .output p => some p

theorem recordEvents_ok {rel : String → Option String} {d d' : Depfile} {es : List DepEvent}
    (h : d.recordEvents rel es = some d') :
    ∃ outs deps, d'.outputs = d.outputs ++ outs ∧ d'.dependencies = d.dependencies ++ deps ∧
      (es.filterMap DepEvent.isOut).map rel = outs.map some ∧
      (es.filterMap DepEvent.isDep).map rel = deps.map some := by
  induction es generalizing d with
  | nil => cases h; exact ⟨[], [], by simp, by simp, rfl, rfl⟩
  | cons e r ih =>
    cases e with
    | dependency p =>
      simp only [Depfile.recordEvents, Depfile.addDependency, Option.bind_eq_some_iff,
        Option.map_eq_some_iff] at h
      obtain ⟨_, ⟨q, hq, rfl⟩, h⟩ := h
      obtain ⟨outs, deps, h1, h2, h3, h4⟩ := ih h
      exact ⟨outs, q :: deps, h1, by simp [h2], h3, by simp [DepEvent.isDep, hq, h4]⟩
    | output p =>
      simp only [Depfile.recordEvents, Depfile.addOutput, Option.bind_eq_some_iff,
        Option.map_eq_some_iff] at h
      obtain ⟨_, ⟨q, hq, rfl⟩, h⟩ := h
      obtain ⟨outs, deps, h1, h2, h3, h4⟩ := ih h
      exact ⟨q :: outs, deps, by simp [h1], h2, by simp [DepEvent.isOut, hq, h3], h4⟩

/-! ### Reading the depfile the way `make` does -/

/-- Remove line continuations: a backslash at the end of a line joins the lines. -/
def joinContinued : List Char → List Char
  | '\\' :: '\n' :: r => ' ' :: joinContinued r
  | c :: r => c :: joinContinued r
  | [] => []

/-- Split at a character. -/
def splitAt (s : Char) : List Char → List (List Char)
  | [] => [[]]
  | c :: r =>
    if c = s then [] :: splitAt s r
    else
      match splitAt s r with
      | [] => [[c]]
      | h :: t => (c :: h) :: t

/-- The words of a line. -/
def wordsOf (l : List Char) : List (List Char) := (splitAt ' ' l).filter fun w => !w.isEmpty

/-- One rule: the targets are before the first colon, the prerequisites after it. -/
def ruleOf (l : List Char) : Option (List (List Char) × List (List Char)) :=
  match splitAt ':' l with
  | [_] => none
  | [t, p] => some (wordsOf t, wordsOf p)
  | _ => none

/-- The rules of a makefile which uses nothing but line continuations. -/
def readRules (l : List Char) : List (List (List Char) × List (List Char)) :=
  (splitAt '\n' (joinContinued l)).filterMap ruleOf

/-- A path which `make` reads as it is: not empty, and without blanks, colons, line feeds and
backslashes. -/
def PlainPath (s : String) : Prop :=
  s.toList ≠ [] ∧ ∀ c ∈ s.toList, c ≠ ' ' ∧ c ≠ ':' ∧ c ≠ '\n' ∧ c ≠ '\\'

theorem splitAt_ne_nil (s : Char) (l : List Char) : splitAt s l ≠ [] := by
  cases l with
  | nil => simp [splitAt]
  | cons c r => simp only [splitAt]; split; · simp
                split <;> simp

theorem splitAt_append {s : Char} {a : List Char} (b : List Char) (h : ∀ c ∈ a, c ≠ s) :
    splitAt s (a ++ s :: b) = a :: splitAt s b := by
  induction a with
  | nil => simp [splitAt]
  | cons c r ih =>
    simp only [List.cons_append, splitAt, if_neg (h c (by simp))]
    rw [ih fun x hx => h x (by simp [hx])]

theorem splitAt_plain {s : Char} {a : List Char} (h : ∀ c ∈ a, c ≠ s) : splitAt s a = [a] := by
  induction a with
  | nil => rfl
  | cons c r ih =>
    simp only [splitAt, if_neg (h c (by simp))]
    rw [ih fun x hx => h x (by simp [hx])]

theorem joinContinued_append {a : List Char} (b : List Char) (h : ∀ c ∈ a, c ≠ '\\') :
    joinContinued (a ++ b) = a ++ joinContinued b := by
  induction a with
  | nil => rfl
  | cons c r ih =>
    have hc := h c (by simp)
    have : joinContinued (c :: (r ++ b)) = c :: joinContinued (r ++ b) := by
      generalize r ++ b = x
      rw [joinContinued.eq_def]
      split
      · next e => cases e; exact absurd rfl hc
      · next e => cases e; rfl
      · next e => cases e
    rw [List.cons_append, this, ih fun x hx => h x (by simp [hx])]
    rfl

/-- The prerequisites of a rule as `make` sees them, after joining lines. -/
def depLine : List String → List Char
  | [] => []
  | [a] => a.toList
  | a :: b :: r => a.toList ++ ' ' :: ' ' :: ' ' :: ' ' :: depLine (b :: r)

theorem joinSep_chars (deps : List String) (b : List Char) (h : ∀ d ∈ deps, PlainPath d) :
    joinContinued ((joinSep " \\\n  " deps).toList ++ b) = depLine deps ++ joinContinued b := by
  induction deps with
  | nil => simp [joinSep, depLine]
  | cons a r ih =>
    have ha : ∀ c ∈ a.toList, c ≠ '\\' := fun c hc => ((h a (by simp)).2 c hc).2.2.2
    cases r with
    | nil => simp only [joinSep, depLine]; exact joinContinued_append b ha
    | cons a' r =>
      have hi := ih fun d hd => h d (by simp [hd])
      simp only [joinSep, depLine, String.toList_append, List.append_assoc]
      rw [joinContinued_append _ ha]
      congr 1
      rw [show (" \\\n  " : String).toList = [' ', '\\', '\n', ' ', ' '] from rfl]
      simp only [List.cons_append, List.nil_append]
      rw [joinContinued, joinContinued, joinContinued, joinContinued, hi]
      all_goals simp

theorem depLine_mem {deps : List String} (h : ∀ d ∈ deps, PlainPath d) :
    ∀ c ∈ depLine deps, c ≠ ':' ∧ c ≠ '\n' := by
  induction deps with
  | nil => intro c hc; cases hc
  | cons a r ih =>
    have ha : ∀ c ∈ a.toList, c ≠ ':' ∧ c ≠ '\n' := fun c hc =>
      ⟨((h a (by simp)).2 c hc).2.1, ((h a (by simp)).2 c hc).2.2.1⟩
    cases r with
    | nil => exact ha
    | cons a' r =>
      intro c hc
      simp only [depLine, List.mem_append, List.mem_cons] at hc
      rcases hc with hc | rfl | rfl | rfl | rfl | hc
      · exact ha c hc
      all_goals first
        | exact ih (fun d hd => h d (by simp [hd])) c hc
        | exact ⟨by decide, by decide⟩

theorem wordsOf_blank (l : List Char) : wordsOf (' ' :: l) = wordsOf l := by
  simp [wordsOf, splitAt]

theorem wordsOf_plain {s : String} (h : PlainPath s) : wordsOf s.toList = [s.toList] := by
  rw [wordsOf, splitAt_plain fun c hc => (h.2 c hc).1]
  have : s.toList.isEmpty = false := by simpa using h.1
  simp [this]

theorem wordsOf_depLine {deps : List String} (h : ∀ d ∈ deps, PlainPath d) :
    wordsOf (depLine deps) = deps.map String.toList := by
  induction deps with
  | nil => rfl
  | cons a r ih =>
    cases r with
    | nil => exact wordsOf_plain (h a (by simp))
    | cons a' r =>
      have ha := h a (by simp)
      have hi := ih fun d hd => h d (by simp [hd])
      simp only [depLine]
      rw [wordsOf, splitAt_append _ fun c hc => (ha.2 c hc).1]
      have : a.toList.isEmpty = false := by simpa using ha.1
      rw [List.filter_cons, this]
      simp only [Bool.not_false, if_true, List.map_cons]
      rw [← wordsOf, wordsOf_blank, wordsOf_blank, wordsOf_blank, hi]
      rfl

theorem ruleOf_line {out : String} {deps : List String} (ho : PlainPath out)
    (h : ∀ d ∈ deps, PlainPath d) :
    ruleOf (out.toList ++ ':' :: ' ' :: depLine deps) =
      some ([out.toList], deps.map String.toList) := by
  rw [ruleOf, splitAt_append _ fun c hc => (ho.2 c hc).2.1, splitAt_plain]
  · dsimp only
    rw [wordsOf_plain ho, wordsOf_blank, wordsOf_depLine h]
  · intro c hc
    rcases List.mem_cons.1 hc with rfl | hc
    · decide
    · exact (depLine_mem h c hc).1

theorem joinSep_empty (l : List String) (s : String) :
    (joinSep "" (s :: l)).toList = s.toList ++ (joinSep "" l).toList := by
  cases l with
  | nil => simp [joinSep]
  | cons a r => simp [joinSep]

/-- C33, for paths without blanks and the like: read by `make`, the depfile is one rule for each
output recorded, in order, and every rule has exactly the dependencies recorded, in order. -/
theorem depfile_read_partial (d : Depfile) (ho : ∀ o ∈ d.outputs, PlainPath o)
    (hd : ∀ p ∈ d.dependencies, PlainPath p) :
    readRules d.text.toList =
      d.outputs.map fun o => ([o.toList], d.dependencies.map String.toList) := by
  obtain ⟨outs, deps⟩ := d
  unfold Depfile.text readRules
  simp only at ho hd ⊢
  induction outs with
  | nil => simp [joinSep, joinContinued, splitAt, ruleOf]
  | cons o r ih =>
    have hi := ih fun x hx => ho x (by simp [hx])
    have hpo := ho o (by simp)
    rw [List.map_cons, joinSep_empty]
    simp only [Depfile.rule, String.toList_append, List.append_assoc]
    rw [joinContinued_append _ fun c hc => (hpo.2 c hc).2.2.2]
    rw [show (": " : String).toList = [':', ' '] from rfl,
      show ("\n\n" : String).toList = ['\n', '\n'] from rfl]
    rw [joinContinued_append (a := [':', ' ']) _ (by decide),
      joinSep_chars deps _ hd, joinContinued_append (a := ['\n', '\n']) _ (by decide)]
    have hline : ∀ c ∈ o.toList ++ ':' :: ' ' :: depLine deps, c ≠ '\n' := by
      intro c hc
      simp only [List.mem_append, List.mem_cons] at hc
      rcases hc with hc | rfl | rfl | hc
      · exact (hpo.2 c hc).2.2.1
      · decide
      · decide
      · exact (depLine_mem hd c hc).2
    rw [show ∀ x : List Char, o.toList ++ ([':', ' '] ++ (depLine deps ++ (['\n', '\n'] ++ x))) =
        (o.toList ++ ':' :: ' ' :: depLine deps) ++ '\n' :: '\n' :: x from by intro x; simp]
    rw [splitAt_append _ hline]
    rw [show ∀ x : List Char, ('\n' :: x) = [] ++ '\n' :: x from fun _ => rfl,
      splitAt_append (a := []) _ (by simp)]
    rw [List.filterMap_cons, ruleOf_line hpo hd]
    dsimp only
    rw [List.filterMap_cons]
    simp only [ruleOf, splitAt]
    rw [show (r.map (Depfile.rule ⟨o :: r, deps⟩)) = r.map (Depfile.rule ⟨r, deps⟩) from rfl]
    rw [hi]
    rfl

/-- C33, false for paths with blanks: they are written as they are, so `make` takes
`my header.h` for two files and the output does not depend on the header. -/
theorem depfile_blank_false :
    let d : Depfile := ⟨["gen0.cc"], ["my header.h"]⟩
    readRules d.text.toList = [(["gen0.cc".toList], ["my".toList, "header.h".toList])] := by
  decide

/-! ## The builder -/

/-- The contents the builder writes under one name. -/
def pairsFor (name : String) (l : List (String × String)) : List String :=
  (l.filter fun p => p.1 = name).map (·.2)

/-- C36 for build scripts: a run which succeeds leaves every file with the content last asked
for. -/
theorem builder_content {io : Nat → Io} {k : Nat} {f f' : Files} {t t' : List String}
    {l : List (String × String)} (h : builderWrites io k f t l = (f', t', true)) (name : String) :
    f' name = lastContent (f name) (pairsFor name l) := by
  induction l generalizing k f t with
  | nil => cases h; rfl
  | cons p r ih =>
    obtain ⟨n, c⟩ := p
    rw [builderWrites] at h
    split at h
    · cases h
    · next f1 t1 h1 =>
      have hf : f1 = f.put n c := by
        unfold builderWrite at h1
        split at h1
        · next hc =>
          simp only [Bool.and_eq_true, decide_eq_true_eq] at hc
          cases h1; exact (put_self hc.2).symm
        · split at h1
          · cases h1
          · split at h1 <;> cases h1
            rfl
      rw [ih h, hf, put_apply]
      simp only [pairsFor, List.filter_cons, decide_eq_true_eq]
      by_cases hn : n = name
      · rw [if_pos hn.symm, if_pos hn]
        simp only [List.map_cons, lastContent, List.getLast?_cons]
        cases ((r.filter fun p => decide (p.1 = name)).map (·.2)).getLast? <;> rfl
      · rw [if_neg fun e => hn e.symm, if_neg hn]

/-- C36 for build scripts: nothing is modified if every file has its content already. -/
theorem builder_untouched {io : Nat → Io} {k : Nat} {f : Files} {t : List String}
    {l : List (String × String)} (hio : ∀ k, io k = Io.works)
    (h : ∀ p ∈ l, f p.1 = some p.2) : builderWrites io k f t l = (f, t, true) := by
  induction l generalizing k with
  | nil => rfl
  | cons p r ih =>
    have hp := h p (by simp)
    rw [builderWrites]
    have : builderWrite (io k) f t p.1 p.2 = (f, t, true) := by
      simp [builderWrite, hio, Io.works, hp]
    rw [this]
    exact ih fun q hq => h q (by simp [hq])

theorem pairsFor_nodup {l : List (String × String)} (hn : (l.map (·.1)).Nodup) {p : String × String}
    (hp : p ∈ l) : pairsFor p.1 l = [p.2] := by
  induction l with
  | nil => cases hp
  | cons q r ih =>
    simp only [List.map_cons, List.nodup_cons] at hn
    simp only [pairsFor, List.filter_cons, decide_eq_true_eq]
    rcases List.mem_cons.1 hp with rfl | hp
    · rw [if_pos rfl]
      have : r.filter (fun x => decide (x.1 = p.1)) = [] := by
        rw [List.filter_eq_nil_iff]
        intro x hx
        simp only [decide_eq_true_eq]
        intro e
        exact hn.1 (e ▸ List.mem_map_of_mem hx)
      rw [this]; rfl
    · rw [if_neg fun e : q.1 = p.1 => hn.1 (e ▸ List.mem_map_of_mem hp)]
      exact ih hn.2 hp

/-- C36 for build scripts: repeating a successful run modifies nothing, provided no name is
written twice. -/
theorem builder_rerun {io io' : Nat → Io} {k k' : Nat} {f f' : Files} {t t' t2 : List String}
    {l : List (String × String)} (h : builderWrites io k f t l = (f', t', true))
    (hn : (l.map (·.1)).Nodup) (hio : ∀ k, io' k = Io.works) :
    builderWrites io' k' f' t2 l = (f', t2, true) := by
  refine builder_untouched hio fun p hp => ?_
  rw [builder_content h, pairsFor_nodup hn hp]
  rfl

/-! ## Dependencies reported by build scripts -/

/-- The first occurrences, in order. -/
def firsts : List String → List String → List String
  | _, [] => []
  | seen, a :: r => if a ∈ seen then firsts seen r else a :: firsts (seen ++ [a]) r

theorem record_foldl (r : Recorder) (l : List String) :
    (l.foldl Recorder.record r).printed =
      r.printed ++ (firsts r.already l).map fun f => "cargo:rerun-if-changed=" ++ f := by
  induction l generalizing r with
  | nil => simp [firsts]
  | cons a l ih =>
    rw [List.foldl_cons, ih]
    simp only [Recorder.record, firsts]
    split
    · rfl
    · simp

theorem firsts_mem {seen l : List String} {a : String} :
    a ∈ firsts seen l ↔ a ∈ l ∧ a ∉ seen := by
  induction l generalizing seen with
  | nil => simp [firsts]
  | cons b r ih =>
    simp only [firsts]
    by_cases hb : b ∈ seen
    · rw [if_pos hb, ih, List.mem_cons]
      constructor
      · exact fun ⟨h1, h2⟩ => ⟨.inr h1, h2⟩
      · rintro ⟨rfl | h1, h2⟩
        · exact absurd hb h2
        · exact ⟨h1, h2⟩
    · rw [if_neg hb, List.mem_cons, ih, List.mem_cons]
      simp only [List.mem_append, List.mem_singleton, not_or]
      constructor
      · rintro (rfl | ⟨h1, h2, _⟩)
        · exact ⟨.inl rfl, hb⟩
        · exact ⟨.inr h1, h2⟩
      · rintro ⟨rfl | h1, h2⟩
        · exact .inl rfl
        · by_cases he : a = b
          · exact .inl he
          · exact .inr ⟨h1, h2, he⟩

theorem firsts_nodup (seen l : List String) : (firsts seen l).Nodup := by
  induction l generalizing seen with
  | nil => exact .nil
  | cons b r ih =>
    simp only [firsts]
    split
    · exact ih seen
    · refine List.nodup_cons.2 ⟨fun h => ?_, ih _⟩
      exact (firsts_mem.1 h).2 (by simp)

theorem recordAll_flat (r : Recorder) (blocks : List (List String)) :
    recordAll r blocks = blocks.flatten.foldl Recorder.record r := by
  unfold recordAll
  induction blocks generalizing r with
  | nil => rfl
  | cons b bs ih => rw [List.foldl_cons, ih, List.flatten_cons, List.foldl_append]

/-- C48: over any sequence of notifications, from any number of blocks, one line is printed for
every header notified of and none twice. -/
theorem recorder_once (blocks : List (List String)) :
    (recordAll Recorder.new blocks).printed.Nodup ∧
      ∀ line, line ∈ (recordAll Recorder.new blocks).printed ↔
        ∃ files ∈ blocks, ∃ f ∈ files, line = "cargo:rerun-if-changed=" ++ f := by
  rw [recordAll_flat, record_foldl]
  constructor
  · simp only [Recorder.new, List.nil_append]
    refine List.Pairwise.map _ (fun a b hab he => hab ?_) (firsts_nodup [] blocks.flatten)
    have := congrArg String.toList he
    simp only [String.toList_append] at this
    exact String.toList_inj.1 (List.append_cancel_left this)
  · intro line
    simp only [Recorder.new, List.nil_append, List.mem_map, firsts_mem, List.mem_flatten,
      List.not_mem_nil, not_false_eq_true, and_true]
    constructor
    · rintro ⟨a, ⟨l, h1, h2⟩, rfl⟩; exact ⟨l, h1, a, h2, rfl⟩
    · rintro ⟨l, h1, a, h2, rfl⟩; exact ⟨a, ⟨l, h1, h2⟩, rfl⟩

/-- The recorder printing in order, a header notified of by two blocks. -/
example : (recordAll Recorder.new [["a.h", "b.h", "a.h"], ["b.h", "c.h"]]).printed =
    ["cargo:rerun-if-changed=a.h", "cargo:rerun-if-changed=b.h", "cargo:rerun-if-changed=c.h"] := by
  decide

/-! ## Compiler arguments -/

/-- C53: the arguments are autocxx's own, then one for each include directory, then the user's, in
the order given; so the last word on any setting is the user's. -/
theorem clang_args_order (incs extra : List String) :
    ∃ incArgs, makeClangArgs incs extra = ["-x", "c++", "-std=c++14", "-DBINDGEN"] ++
        (incArgs ++ extra) ∧
      incArgs.length = incs.length ∧ ∀ (i : Nat) (p : String), incs[i]? = some p →
        incArgs[i]? = some ("-I" ++ p) := by
  refine ⟨incs.map fun i => "-I" ++ i, by simp [makeClangArgs, autocxxClangArgs], by simp, ?_⟩
  intro i p h
  simp [h]

/-- The setting a compiler uses when the last one given counts. -/
def lastWith (p : String) (args : List String) : Option String :=
  (args.filter fun a => startsWith a p).getLast?

/-- C53: the language standard is the user's last `-std=`, and autocxx's default if there is
none. -/
theorem std_overridable (incs extra : List String) :
    lastWith "-std=" (makeClangArgs incs extra) =
      ((lastWith "-std=" extra).or (some "-std=c++14")) := by
  have hinc : (incs.map fun i => "-I" ++ i).filter (fun a => startsWith a "-std=") = [] := by
    rw [List.filter_eq_nil_iff]
    intro a ha
    obtain ⟨i, _, rfl⟩ := List.mem_map.1 ha
    simp only [startsWith, String.toList_append]
    rw [show ("-std=" : String).toList = ['-', 's', 't', 'd', '='] from rfl,
      show ("-I" : String).toList = ['-', 'I'] from rfl]
    simp [List.isPrefixOf]
  have h0 : autocxxClangArgs.filter (fun a => startsWith a "-std=") = ["-std=c++14"] := by decide
  unfold lastWith makeClangArgs
  rw [List.filter_append, List.filter_append, hinc, h0]
  simp only [List.append_nil, List.singleton_append, List.getLast?_cons]
  cases ((extra.filter fun a => startsWith a "-std=").getLast?) <;> rfl

/-! ## System headers -/

theorem startsWith_charlist (l : List Char) :
    startsWith (String.ofList l) "#include <" = "#include <".toList.isPrefixOf l := by
  simp [startsWith]

/-- C53: without the option nothing is removed; with it, exactly the lines which start with
`#include <` are, and the other lines stay in order, separated by line feeds. -/
theorem system_headers_removed (input : String) :
    stripSystemHeaders input false = input ∧
      ∃ kept, stripSystemHeaders input true = joinSep "\n" kept ∧
        kept.Sublist (rustLines input) ∧
        ∀ l ∈ rustLines input, l ∈ kept ↔ ¬ "#include <".toList <+: l.toList := by
  refine ⟨rfl, _, rfl, List.filter_sublist, fun l hl => ?_⟩
  rw [List.mem_filter, ← startsWith_iff]
  simp [hl]

/-- Lines of a text with both kinds of line ends, the last one unfinished. -/
example : rustLines "a\r\nb\n\nc\r" = ["a", "b", "", "c\r"] ∧ rustLines "x\n" = ["x"] := by decide

/-- Local headers stay; the final line feed does not. -/
example : stripSystemHeaders "#include <memory>\n#include \"cxx.h\"\nint x;\n" true =
    "#include \"cxx.h\"\nint x;" := by decide

end Verif
