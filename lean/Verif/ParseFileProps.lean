import Verif.Util
import Verif.ParseFile

/-!
# Engines and source files: properties C39 and C40
-/

set_option autoImplicit false

namespace Verif

/-! ## C39: what can be done with one block -/

/-- A call on an engine. -/
inductive EngineCall (ρ : Type) where
  | edit (f : Config → Config)
  | generate (conv : Config → Option ρ)
  | rustOutput
  | cppOutput

/-- What the caller gets. -/
inductive EngineReply (ρ : Type) where
  | done
  | failed (e : GenErr)
  | rust (c : Config) (r : Option ρ)
  | cpp (r : ρ)

/-- One call: the engine afterwards and the reply, or a panic. -/
def engineStep {ρ : Type} (nightly : Bool) (hash : Config → Nat) (e : Engine ρ) :
    EngineCall ρ → Option (Engine ρ × EngineReply ρ)
  | .edit f =>
    match e.configMut (ε := GenErr) f with
    | .ok e => some (e, .done)
    | _ => none
  | .generate conv =>
    match e.generate nightly hash conv with
    | .ok e => some (e, .done)
    | .err x => some (e, .failed x)
    | .panic => none
  | .rustOutput =>
    match e.getRsOutput (ε := GenErr) with
    | .ok (c, r) => some (e, .rust c r)
    | _ => none
  | .cppOutput =>
    match e.results (ε := GenErr) with
    | .ok r => some (e, .cpp r)
    | _ => none

/-- A sequence of calls, until one panics. -/
def engineRun {ρ : Type} (nightly : Bool) (hash : Config → Nat) (e : Engine ρ) :
    List (EngineCall ρ) → Option (Engine ρ × List (EngineReply ρ))
  | [] => some (e, [])
  | call :: r =>
    (engineStep nightly hash e call).bind fun x =>
      (engineRun nightly hash x.1 r).map fun y => (y.1, x.2 :: y.2)

/-- The configuration after some edits; other calls do not change it. -/
def edited {ρ : Type} (c : Config) : List (EngineCall ρ) → Config
  | [] => c
  | .edit f :: r => edited (f c) r
  | _ :: r => edited c r

/-- The calls which an engine which has generated nothing yet answers without panicking: edits, and
generations which fail. -/
inductive Waiting {ρ : Type} : Config → List (EngineCall ρ) → List (EngineReply ρ) → Prop
  | nil {c} : Waiting c [] []
  | edit {c f calls replies} (h : Waiting (f c) calls replies) :
    Waiting c (.edit f :: calls) (.done :: replies)
  | failed {c conv e calls replies} (h : Waiting c calls replies) :
    Waiting c (.generate conv :: calls) (.failed e :: replies)

/-- The calls which an engine with results answers: those for its output, which is always the
same. -/
inductive Finished {ρ : Type} (c : Config) (r : ρ) :
    List (EngineCall ρ) → List (EngineReply ρ) → Prop
  | nil : Finished c r [] []
  | rust {calls replies} (h : Finished c r calls replies) :
    Finished c r (.rustOutput :: calls) (.rust c (some r) :: replies)
  | cpp {calls replies} (h : Finished c r calls replies) :
    Finished c r (.cppOutput :: calls) (.cpp r :: replies)

theorem run_generated {ρ : Type} {nightly : Bool} {hash : Config → Nat} {c : Config} {r : ρ}
    {calls : List (EngineCall ρ)} {e : Engine ρ} {replies : List (EngineReply ρ)}
    (h : engineRun nightly hash ⟨c, .generated r⟩ calls = some (e, replies)) :
    e = ⟨c, .generated r⟩ ∧ Finished c r calls replies := by
  induction calls generalizing replies with
  | nil => cases h; exact ⟨rfl, .nil⟩
  | cons call rest ih =>
    simp only [engineRun, Option.bind_eq_some_iff, Option.map_eq_some_iff, Prod.mk.injEq] at h
    obtain ⟨⟨e1, rep⟩, h1, ⟨⟨e2, reps⟩, h2, rfl, rfl⟩⟩ := h
    cases call with
    | edit f => cases h1
    | generate conv => cases h1
    | rustOutput => cases h1; exact ⟨(ih h2).1, .rust (ih h2).2⟩
    | cppOutput => cases h1; exact ⟨(ih h2).1, .cpp (ih h2).2⟩

/-- C39: any sequence of calls on an ordinary block which does not panic consists of edits and
failing generations; then, if a generation succeeds, that one, followed by nothing but requests for
its output, which is that of the configuration as edited. -/
theorem engine_life {ρ : Type} {nightly : Bool} {hash : Config → Nat} {c : Config}
    {calls : List (EngineCall ρ)} {e : Engine ρ} {replies : List (EngineReply ρ)}
    (h : engineRun nightly hash ⟨c, .notGenerated⟩ calls = some (e, replies)) :
    ∃ before after rb ra, calls = before ++ after ∧ replies = rb ++ ra ∧ Waiting c before rb ∧
      ((after = [] ∧ ra = [] ∧ e = ⟨edited c before, .notGenerated⟩) ∨
        ∃ conv r rest rr, after = .generate conv :: rest ∧ ra = .done :: rr ∧
          conv (edited c before) = some r ∧ e = ⟨edited c before, .generated r⟩ ∧
          ((edited c before).unsafePolicy = .referencesWrappedAllFunctionsSafe → nightly = true) ∧
          Finished (edited c before) r rest rr) := by
  induction calls generalizing c replies with
  | nil => cases h; exact ⟨[], [], [], [], rfl, rfl, .nil, .inl ⟨rfl, rfl, rfl⟩⟩
  | cons call rest ih =>
    simp only [engineRun, Option.bind_eq_some_iff, Option.map_eq_some_iff, Prod.mk.injEq] at h
    obtain ⟨⟨e1, rep⟩, h1, ⟨⟨e2, reps⟩, h2, rfl, rfl⟩⟩ := h
    cases call with
    | edit f =>
      cases h1
      obtain ⟨before, after, rb, ra, rfl, rfl, hw, hr⟩ := ih h2
      exact ⟨.edit f :: before, after, .done :: rb, ra, rfl, rfl, .edit hw, hr⟩
    | generate conv =>
      simp only [engineStep, Engine.generate] at h1
      split at h1
      · next e' hg =>
        cases h1
        split at hg
        · cases hg
        · next hp =>
          split at hg
          · cases hg
          · split at hg
            · cases hg
            · next r hc =>
              cases hg
              obtain ⟨rfl, hf⟩ := run_generated h2
              refine ⟨[], _, [], _, rfl, rfl, .nil, .inr ⟨conv, r, rest, _, rfl, rfl, hc, rfl, ?_,
                hf⟩⟩
              intro hpol
              cases nightly with
              | true => rfl
              | false => exact absurd ⟨hpol, rfl⟩ hp
      · next x hg =>
        cases h1
        obtain ⟨before, after, rb, ra, rfl, rfl, hw, hr⟩ := ih h2
        exact ⟨.generate conv :: before, after, .failed x :: rb, ra, rfl, rfl, .failed hw, hr⟩
      · cases h1
    | rustOutput => cases h1
    | cppOutput => cases h1

/-- C39: a block for parsing only never generates: whatever is called without panicking is a
generation, which does nothing, or a request for the Rust code, which is empty. -/
theorem parse_only_life {ρ : Type} {nightly : Bool} {hash : Config → Nat} {c : Config}
    {calls : List (EngineCall ρ)} {e : Engine ρ} {replies : List (EngineReply ρ)}
    (h : engineRun nightly hash ⟨c, .parseOnly⟩ calls = some (e, replies)) :
    e = ⟨c, .parseOnly⟩ ∧
      All2 (fun call reply => ((∃ conv, call = .generate conv) ∧ reply = .done) ∨
        (call = .rustOutput ∧ reply = .rust c none)) calls replies := by
  induction calls generalizing replies with
  | nil => cases h; exact ⟨rfl, .nil⟩
  | cons call rest ih =>
    simp only [engineRun, Option.bind_eq_some_iff, Option.map_eq_some_iff, Prod.mk.injEq] at h
    obtain ⟨⟨e1, rep⟩, h1, ⟨⟨e2, reps⟩, h2, rfl, rfl⟩⟩ := h
    cases call with
    | edit f => cases h1
    | generate conv => cases h1; exact ⟨(ih h2).1, .cons (.inl ⟨⟨conv, rfl⟩, rfl⟩) (ih h2).2⟩
    | rustOutput => cases h1; exact ⟨(ih h2).1, .cons (.inr ⟨rfl, rfl⟩) (ih h2).2⟩
    | cppOutput => cases h1

/-- C39: exactly when generating succeeds. -/
theorem generate_ok_iff {ρ : Type} {nightly : Bool} {hash : Config → Nat} {conv : Config → Option ρ}
    {e e' : Engine ρ} :
    e.generate nightly hash conv = .ok e' ↔
      (e.state = .parseOnly ∧ e' = e) ∨
      (e.state = .notGenerated ∧
        (e.config.unsafePolicy = .referencesWrappedAllFunctionsSafe → nightly = true) ∧
        (∀ l, e.config.allowlist ≠ .unspecified l) ∧
        ∃ r, conv e.config = some r ∧ e' = ⟨e.config, .generated r⟩) := by
  obtain ⟨c, s⟩ := e
  cases s with
  | parseOnly =>
    simp only [Engine.generate, Call.ok.injEq, true_and, reduceCtorEq, false_and, or_false]
    exact eq_comm
  | generated r => simp [Engine.generate]
  | notGenerated =>
    simp only [Engine.generate, reduceCtorEq, false_and, true_and, false_or]
    by_cases hp : c.unsafePolicy = .referencesWrappedAllFunctionsSafe ∧ nightly = false
    · rw [if_pos hp]
      simp only [reduceCtorEq, false_iff, not_and]
      intro h
      have := h hp.1
      rw [hp.2] at this
      cases this
    · rw [if_neg hp]
      have hp' : c.unsafePolicy = .referencesWrappedAllFunctionsSafe → nightly = true := by
        intro h
        cases nightly with
        | true => rfl
        | false => exact absurd ⟨h, rfl⟩ hp
      refine Iff.trans ?_ (and_iff_right hp').symm
      unfold Config.bindgenAllowlist
      cases ha : c.allowlist with
      | unspecified l => simp
      | all =>
        cases hc : conv c with
        | none => simp
        | some r => simp only [Call.ok.injEq, ne_eq, reduceCtorEq, not_false_eq_true, implies_true,
            Option.some.injEq, true_and, exists_eq_left']; exact eq_comm
      | specific l =>
        cases hc : conv c with
        | none => simp
        | some r => simp only [Call.ok.injEq, ne_eq, reduceCtorEq, not_false_eq_true, implies_true,
            Option.some.injEq, true_and, exists_eq_left']; exact eq_comm

/-! ## C40: specification -/

/-- A block or bridge in a file; blocks are at the top of the file or within a module. -/
inductive Found (α : Type) where
  | block (top : Bool) (body : List Tok)
  | bridge (item : α)

mutual
/-- The blocks and bridges of an item, at every depth, in order. -/
def itemBlocks {α : Type} (top : Bool) : FileItem α → List (Found α)
  | .macroCall path body _ => if path.getLast? = some "include_cpp" then [.block top body] else []
  | .module attrs _ items item =>
    if attrs.any Attr.isBridge then [.bridge item] else itemsBlocks false items
  | .moduleDecl attrs _ item => if attrs.any Attr.isBridge then [.bridge item] else []
  | .struct .. => []
  | .other _ => []
/-- The blocks and bridges of some items. -/
def itemsBlocks {α : Type} (top : Bool) : List (FileItem α) → List (Found α)
  | [] => []
  | i :: r => itemBlocks top i ++ itemsBlocks top r
end

/-- An engine or bridge of a parsed file. -/
inductive Placed (ρ α : Type) where
  | engine (top : Bool) (e : Engine ρ)
  | bridge (item : α)

mutual
/-- The engines and bridges of a segment, at every depth, in order. -/
def Segment.placed {ρ α : Type} (top : Bool) : Segment ρ α → List (Placed ρ α)
  | .autocxx e => [.engine top e]
  | .cxx a => [.bridge a]
  | .module l => segPlaced false l
  | .other => []
/-- The engines and bridges of some segments. -/
def segPlaced {ρ α : Type} (top : Bool) : List (Segment ρ α) → List (Placed ρ α)
  | [] => []
  | s :: r => s.placed top ++ segPlaced top r
end

/-- What becomes of a block or bridge: `f` is what is done to the configurations of blocks at the
top of the file, and nothing is done to those of the others. -/
inductive Becomes {ρ α : Type} (f : Config → Config → Prop) : Found α → Placed ρ α → Prop
  | top {body c c'} (h : parseConfig body = .ok c) (hf : f c c') :
    Becomes f (.block true body) (.engine true ⟨c', (Engine.ofConfig c).state⟩)
  | nested {body c} (h : parseConfig body = .ok c) :
    Becomes f (.block false body) (.engine false (Engine.ofConfig c))
  | bridge {a} : Becomes f (.bridge a) (.bridge a)

/-- The allowlist with the items discovered. -/
def Allowlisted (a : Allowlist) (items : List String) (a' : Allowlist) : Prop :=
  (items = [] ∧ a' = a) ∨
    (items ≠ [] ∧ ∃ l, (a = .unspecified l ∨ a = .specific l) ∧
      a' = .specific (l ++ items.map .item))

/-- A configuration which has been given what was discovered. -/
def Attached (auto : Bool) (supers : List SubclassReq) (d : Discoveries) (c c' : Config) : Prop :=
  ∃ a, Allowlisted c.allowlist (if auto then d.cppList else []) a ∧
    c' = { c with subclasses := c.subclasses ++ supers, allowlist := a,
                  externRustFuns := c.externRustFuns ++ d.rustFuns,
                  rustTypes := c.rustTypes ++ d.rustTypes }

/-! ## Parsing the items -/

theorem All2.append {α β : Type} {R : α → β → Prop} {l l' : List α} {m m' : List β}
    (h : All2 R l m) (h' : All2 R l' m') : All2 R (l ++ l') (m ++ m') := by
  induction h with
  | nil => exact h'
  | cons h _ ih => exact .cons h ih

theorem segPlaced_append {ρ α : Type} (top : Bool) (a b : List (Segment ρ α)) :
    segPlaced top (a ++ b) = segPlaced top a ++ segPlaced top b := by
  induction a with
  | nil => rfl
  | cons s r ih => simp only [List.cons_append, segPlaced, ih, List.append_assoc]

theorem searchOther_results {ρ α : Type} {search : Search α} {p : Option RustPath} {i : α}
    {st st' : FileState ρ α} (h : st.searchOther search p i = .ok st') :
    st'.results = st.results ++ [.other] := by
  unfold FileState.searchOther at h
  split at h
  · cases h
  · cases h; rfl

mutual
theorem parseItem_placed {ρ α : Type} {search : Search α} {auto : Bool} {p : Option RustPath}
    {st st' : FileState ρ α} (top : Bool) :
    ∀ {i : FileItem α}, parseItem search auto p st i = .ok st' →
      ∃ s, st'.results = st.results ++ [s] ∧
        All2 (Becomes Eq) (itemBlocks top i) (s.placed top)
  | .macroCall path body item, h => by
    rw [parseItem] at h
    rw [itemBlocks]
    split at h
    · next hp =>
      rw [if_pos hp]
      split at h
      · cases h
      · next c hc =>
        cases h
        refine ⟨_, rfl, .cons ?_ .nil⟩
        cases top
        · exact .nested hc
        · exact Becomes.top hc rfl
    · next hp =>
      rw [if_neg hp]
      exact ⟨_, searchOther_results h, .nil⟩
  | .module attrs name items item, h => by
    rw [parseItem] at h
    rw [itemBlocks]
    split at h
    · next hp => rw [if_pos hp]; cases h; exact ⟨_, rfl, .cons .bridge .nil⟩
    · next hp =>
      rw [if_neg hp]
      split at h
      · cases h
      · next m hm =>
        have ih := parseItems_placed false hm
        cases h
        refine ⟨_, rfl, ?_⟩
        obtain ⟨segs, h1, h2⟩ := ih
        simp only [FileState.empty, List.nil_append] at h1
        rw [Segment.placed, h1]
        exact h2
  | .moduleDecl attrs name item, h => by
    rw [parseItem] at h
    rw [itemBlocks]
    split at h
    · next hp => rw [if_pos hp]; cases h; exact ⟨_, rfl, .cons .bridge .nil⟩
    · next hp => rw [if_neg hp]; cases h; exact ⟨_, rfl, .nil⟩
  | .struct attrs name item, h => by
    rw [parseItem] at h
    split at h
    · cases h
    · next l hl =>
      rw [itemBlocks]
      exact ⟨_, (searchOther_results h).trans rfl, .nil⟩
  | .other item, h => by
    rw [parseItem] at h
    rw [itemBlocks]
    exact ⟨_, searchOther_results h, .nil⟩
theorem parseItems_placed {ρ α : Type} {search : Search α} {auto : Bool} {p : Option RustPath}
    {st st' : FileState ρ α} (top : Bool) :
    ∀ {items : List (FileItem α)}, parseItems search auto p st items = .ok st' →
      ∃ segs, st'.results = st.results ++ segs ∧
        All2 (Becomes Eq) (itemsBlocks top items) (segPlaced top segs)
  | [], h => by
    rw [parseItems] at h
    cases h
    exact ⟨[], by simp, by rw [itemsBlocks, segPlaced]; exact .nil⟩
  | i :: r, h => by
    rw [parseItems] at h
    split at h
    · cases h
    · next st1 h1 =>
      obtain ⟨s, e1, a1⟩ := parseItem_placed top h1
      obtain ⟨segs, e2, a2⟩ := parseItems_placed top h
      refine ⟨s :: segs, by rw [e2, e1]; simp, ?_⟩
      rw [itemsBlocks, segPlaced]
      exact a1.append a2
end

/-! ## Blocks at the top -/

/-- The engine of a block at the top of the file. -/
def Placed.topEngine {ρ α : Type} : Placed ρ α → Option (Engine ρ)
  | .engine true e => some e
  | _ => none

mutual
theorem placed_nested {ρ α : Type} : ∀ (s : Segment ρ α),
    ∀ p ∈ s.placed false, p.topEngine = none
  | .autocxx e => by
    intro p hp
    rw [Segment.placed, List.mem_singleton] at hp
    subst hp; rfl
  | .cxx a => by
    intro p hp
    rw [Segment.placed, List.mem_singleton] at hp
    subst hp; rfl
  | .module l => by rw [Segment.placed]; exact segPlaced_nested l
  | .other => by intro p hp; rw [Segment.placed] at hp; cases hp
theorem segPlaced_nested {ρ α : Type} : ∀ (l : List (Segment ρ α)),
    ∀ p ∈ segPlaced false l, p.topEngine = none
  | [] => by intro p hp; rw [segPlaced] at hp; cases hp
  | s :: r => by
    intro p hp
    rw [segPlaced] at hp
    rcases List.mem_append.1 hp with hp | hp
    · exact placed_nested s p hp
    · exact segPlaced_nested r p hp
end

theorem filterMap_none {α β : Type} {f : α → Option β} {l : List α} (h : ∀ a ∈ l, f a = none) :
    l.filterMap f = [] := by
  rw [List.filterMap_eq_nil_iff]; exact h

theorem topEngines_placed {ρ α : Type} (l : List (Segment ρ α)) :
    topEngines l = (segPlaced true l).filterMap Placed.topEngine := by
  induction l with
  | nil => rfl
  | cons s r ih =>
    rw [segPlaced, List.filterMap_append, ← ih]
    cases s with
    | autocxx e => simp [topEngines, Segment.placed, Placed.topEngine]
    | cxx a => simp [topEngines, Segment.placed, Placed.topEngine]
    | module m =>
      rw [Segment.placed, filterMap_none (segPlaced_nested m)]
      rfl
    | other => simp [topEngines, Segment.placed]

/-- Change the engines of blocks at the top. -/
def Placed.mapTop {ρ α : Type} (f : Engine ρ → Engine ρ) : Placed ρ α → Placed ρ α
  | .engine true e => .engine true (f e)
  | p => p

theorem mapTop_of_none {ρ α : Type} {f : Engine ρ → Engine ρ} {p : Placed ρ α}
    (h : p.topEngine = none) : p.mapTop f = p := by
  cases p with
  | bridge a => rfl
  | engine t e => cases t with
    | true => cases h
    | false => rfl

theorem map_mapTop_nested {ρ α : Type} (f : Engine ρ → Engine ρ) {l : List (Placed ρ α)}
    (h : ∀ p ∈ l, p.topEngine = none) : l.map (Placed.mapTop f) = l := by
  conv => rhs; rw [← List.map_id l]
  exact List.map_congr_left fun p hp => mapTop_of_none (h p hp)

theorem confirmTop_placed {ρ α : Type} (l : List (Segment ρ α)) :
    segPlaced true (l.map confirmTop) = (segPlaced true l).map
      (Placed.mapTop fun e => { e with config := e.config.confirmComplete }) := by
  induction l with
  | nil => rfl
  | cons s r ih =>
    rw [List.map_cons, segPlaced, segPlaced, List.map_append, ← ih]
    congr 1
    cases s with
    | autocxx e => simp [confirmTop, Segment.placed, Placed.mapTop]
    | cxx a => simp [confirmTop, Segment.placed, Placed.mapTop]
    | module m =>
      rw [confirmTop]
      · rw [Segment.placed, map_mapTop_nested _ (segPlaced_nested m)]
      · intro e h; cases h
    | other => simp [confirmTop, Segment.placed]

theorem updateFirst_placed {ρ α : Type} {l : List (Segment ρ α)} {e0 : Engine ρ} (e : Engine ρ)
    (h : topEngines l = [e0]) :
    segPlaced true (updateFirst e l) = (segPlaced true l).map (Placed.mapTop fun _ => e) := by
  induction l with
  | nil => rfl
  | cons s r ih =>
    cases s with
    | autocxx e1 =>
      have hr : topEngines r = [] := by simpa [topEngines] using congrArg List.tail h
      rw [topEngines_placed] at hr
      have hn := List.filterMap_eq_nil_iff.1 hr
      rw [updateFirst, segPlaced, segPlaced, List.map_append, map_mapTop_nested _ hn]
      simp [Segment.placed, Placed.mapTop]
    | cxx a =>
      have h : topEngines r = [e0] := h
      rw [updateFirst, segPlaced, segPlaced, List.map_append, ih h]
      · simp [Segment.placed, Placed.mapTop]
      · intro e h; cases h
    | module m =>
      have h : topEngines r = [e0] := h
      rw [updateFirst, segPlaced, segPlaced, List.map_append, ih h]
      · rw [Segment.placed, map_mapTop_nested _ (segPlaced_nested m)]
      · intro e h; cases h
    | other =>
      have h : topEngines r = [e0] := h
      rw [updateFirst, segPlaced, segPlaced, List.map_append, ih h]
      · simp [Segment.placed]
      · intro e h; cases h

/-! ## Attaching what was discovered -/

theorem pushAll_some {a a' : Allowlist} {l : List String} (h : pushAll a l = some a') :
    Allowlisted a l a' := by
  induction l generalizing a with
  | nil => cases h; exact .inl ⟨rfl, rfl⟩
  | cons s r ih =>
    simp only [pushAll, Option.bind_eq_some_iff] at h
    obtain ⟨a1, h1, h2⟩ := h
    refine .inr ⟨by simp, ?_⟩
    have key : ∀ l, a1 = .specific (l ++ [.item s]) →
        a' = .specific (l ++ (s :: r).map AllowlistEntry.item) := by
      intro l e
      subst e
      rcases ih h2 with ⟨rfl, rfl⟩ | ⟨_, l', e | e, rfl⟩
      · rfl
      · cases e
      · cases e; simp
    cases a with
    | unspecified l => exact ⟨l, .inl rfl, key l (Option.some.inj h1).symm⟩
    | specific l => exact ⟨l, .inr rfl, key l (Option.some.inj h1).symm⟩
    | all => cases h1

theorem attach_ok {ρ : Type} {auto : Bool} {supers : List SubclassReq} {d : Discoveries}
    {e e' : Engine ρ} (h : attach auto supers d e = .ok e') :
    e.state = .notGenerated ∧ e'.state = .notGenerated ∧
      Attached auto supers d e.config e'.config := by
  obtain ⟨c, s⟩ := e
  unfold attach Engine.configMut at h
  cases s with
  | parseOnly => cases h
  | generated r => cases h
  | notGenerated =>
    simp only [Call.bind] at h
    split at h
    · cases h
    · next a ha =>
      cases h
      refine ⟨rfl, rfl, a, ?_, rfl⟩
      cases auto with
      | true => exact pushAll_some ha
      | false => cases ha; exact .inl ⟨rfl, rfl⟩

/-! ## The whole file -/

/-- The body of a block at the top of the file. -/
def Found.topBody {α : Type} : Found α → Option (List Tok)
  | .block true b => some b
  | _ => none

theorem All2.map_mem {α β γ : Type} {R : α → β → Prop} {S : α → γ → Prop} {f : β → γ} {l : List α}
    {m : List β} (h : All2 R l m) (hf : ∀ a b, b ∈ m → R a b → S a (f b)) :
    All2 S l (m.map f) := by
  induction h with
  | nil => exact .nil
  | cons h _ ih =>
    exact .cons (hf _ _ List.mem_cons_self h) (ih fun a b hb => hf a b (List.mem_cons_of_mem _ hb))

/-- The engines at the top are those of the blocks at the top. -/
theorem becomes_tops {ρ α : Type} {l : List (Found α)} {m : List (Placed ρ α)}
    (h : All2 (Becomes Eq) l m) :
    All2 (fun body e => ∃ c, parseConfig body = .ok c ∧ e = Engine.ofConfig c)
      (l.filterMap Found.topBody) (m.filterMap Placed.topEngine) := by
  induction h with
  | nil => exact .nil
  | cons h _ ih =>
    cases h with
    | top h e => subst e; exact .cons ⟨_, h, rfl⟩ ih
    | nested h => exact ih
    | bridge => exact ih

theorem ofConfig_notGenerated {ρ : Type} {c : Config}
    (h : (Engine.ofConfig c : Engine ρ).state = .notGenerated) : c.parseOnly = false := by
  simp only [Engine.ofConfig] at h
  split at h
  · cases h
  · next hp => simpa using hp

/-- C40: what a file gives. Every block, at any depth, outside bridges, becomes an engine in the
same place, and every bridge a bridge. The ones at the top have a decided allowlist. If something
was discovered, there is at most one block at the top, not for parsing only, and it gets all of it;
if there is none, one more is made. -/
theorem parse_file_blocks {ρ α : Type} {search : Search α} {auto : Bool} {items : List (FileItem α)}
    {segs : List (Segment ρ α)} (h : parseFile search auto items = .ok segs) :
    ∃ st, parseItems search auto none FileState.empty items = .ok (st : FileState ρ α) ∧
      (mustHandle auto st = false →
        All2 (Becomes fun c c' => c' = c.confirmComplete) (itemsBlocks true items)
          (segPlaced true segs)) ∧
      (mustHandle auto st = true →
        (∃ body c c', (itemsBlocks true items).filterMap Found.topBody = [body] ∧
          parseConfig body = .ok c ∧ c.parseOnly = false ∧
          Attached auto st.extraSuperclasses st.discoveries c c' ∧
          All2 (Becomes fun _ x => x = c'.confirmComplete) (itemsBlocks true items)
            (segPlaced true segs)) ∨
        (∃ c' placed, (itemsBlocks true items).filterMap Found.topBody = [] ∧
          Attached auto st.extraSuperclasses st.discoveries {} c' ∧
          All2 (Becomes Eq) (itemsBlocks true items) placed ∧
          segPlaced true segs = placed ++ [.engine true ⟨c'.confirmComplete, .notGenerated⟩])) := by
  unfold parseFile at h
  split at h
  · cases h
  · next st hst =>
    obtain ⟨segs0, hr, hb⟩ := parseItems_placed true hst
    simp only [FileState.empty, List.nil_append] at hr
    subst hr
    refine ⟨st, hst, ?_, ?_⟩
    · intro hm
      rw [handleDiscovered, if_neg (by simp [hm])] at h
      cases h
      rw [confirmTop_placed]
      refine hb.map_mem fun x p _ hx => ?_
      cases hx with
      | top h e => subst e; exact .top h rfl
      | nested h => exact .nested h
      | bridge => exact .bridge
    · intro hm
      rw [handleDiscovered, if_pos hm] at h
      have ht := becomes_tops hb
      rw [← topEngines_placed] at ht
      dsimp only at h
      cases he : topEngines st.results with
      | nil =>
        have htop : topEngines (st.results ++ [Segment.autocxx (Engine.newForAutodiscover (ρ := ρ))])
            = [Engine.newForAutodiscover] := by
          unfold topEngines at he ⊢
          rw [List.filterMap_append, he]
          rfl
        rw [he] at ht h
        simp only [List.isEmpty_nil, if_true, htop] at h
        cases ha : attach auto st.extraSuperclasses st.discoveries
            (Engine.newForAutodiscover (ρ := ρ)) with
        | err e => rw [ha] at h; cases h
        | panic => rw [ha] at h; cases h
        | ok e' =>
          rw [ha] at h
          simp only [Call.bind, Call.ok.injEq] at h
          obtain ⟨_, hs', hat⟩ := attach_ok ha
          refine .inr ⟨e'.config, _, ?_, hat, hb, ?_⟩
          · have := ht.length
            exact List.length_eq_zero_iff.1 this
          · have hn : ∀ p ∈ segPlaced true st.results, p.topEngine = none := by
              rw [topEngines_placed] at he
              exact List.filterMap_eq_nil_iff.1 he
            rw [← h, confirmTop_placed, updateFirst_placed e' htop, segPlaced_append,
              List.map_append, List.map_append, map_mapTop_nested _ hn, map_mapTop_nested _ hn]
            simp only [segPlaced, Segment.placed, List.append_nil, List.map_cons, List.map_nil,
              Placed.mapTop, hs']
      | cons e others =>
        rw [he] at ht h
        simp only [List.isEmpty_cons, Bool.false_eq_true, if_false, he] at h
        cases ha : attach auto st.extraSuperclasses st.discoveries e with
        | err e => rw [ha] at h; cases h
        | panic => rw [ha] at h; cases h
        | ok e' =>
          rw [ha] at h
          simp only [Call.bind] at h
          cases others with
          | cons a b => cases h
          | nil =>
            simp only [List.isEmpty_nil, if_true, Call.ok.injEq] at h
            obtain ⟨hs, hs', hat⟩ := attach_ok ha
            generalize hf : (itemsBlocks true items).filterMap Found.topBody = tops at ht
            cases ht with
            | cons h1 h2 =>
              cases h2
              obtain ⟨c, hc, rfl⟩ := h1
              refine .inl ⟨_, c, e'.config, rfl, hc, ofConfig_notGenerated hs, hat, ?_⟩
              rw [← h, confirmTop_placed, updateFirst_placed e' he, List.map_map]
              refine hb.map_mem fun x p hp hx => ?_
              cases hx with
              | nested h => exact .nested h
              | bridge => exact .bridge
              | top h e =>
                subst e
                rename_i c1
                have hmem : (⟨c1, (Engine.ofConfig (ρ := ρ) c1).state⟩ : Engine ρ) ∈
                    topEngines st.results := by
                  rw [topEngines_placed]
                  exact List.mem_filterMap.2 ⟨_, hp, rfl⟩
                rw [he, List.mem_singleton] at hmem
                have hst1 : (Engine.ofConfig (ρ := ρ) c1).state = .notGenerated := by
                  rw [← hs]; exact congrArg Engine.state hmem
                have heq : (Placed.mapTop (α := α)
                    (fun e => { e with config := e.config.confirmComplete }) ∘
                    Placed.mapTop fun _ => e')
                    (.engine true ⟨c1, (Engine.ofConfig (ρ := ρ) c1).state⟩) =
                    .engine true ⟨e'.config.confirmComplete,
                      (Engine.ofConfig (ρ := ρ) c1).state⟩ := by
                  rw [hst1, ← hs']; rfl
                rw [heq]
                exact .top h rfl

theorem pushAll_ok {a : Allowlist} {l : List String} (h : l ≠ [] → a ≠ .all) :
    ∃ a', pushAll a l = some a' := by
  induction l generalizing a with
  | nil => exact ⟨a, rfl⟩
  | cons s r ih =>
    cases a with
    | all => exact absurd rfl (h (by simp))
    | unspecified l => exact ih (by simp)
    | specific l => exact ih (by simp)

theorem attach_total {ρ : Type} {auto : Bool} {supers : List SubclassReq} {d : Discoveries}
    {e : Engine ρ} (hs : e.state = .notGenerated)
    (ha : auto = true → d.cppList ≠ [] → e.config.allowlist ≠ .all) :
    ∃ e', attach auto supers d e = .ok e' := by
  obtain ⟨c, s⟩ := e
  cases hs
  unfold attach Engine.configMut
  simp only [Call.bind]
  cases auto with
  | false => exact ⟨_, rfl⟩
  | true =>
    obtain ⟨a', h'⟩ := pushAll_ok (ha rfl)
    simp only [if_true, h']
    exact ⟨_, rfl⟩

/-- C40: exactly which files are accepted, once their items are: if nothing is discovered, all of
them; otherwise those with no block at the top, or with a single one which is not for parsing only
and, if items are to be added to its allowlist, does not generate everything. -/
theorem parse_file_ok_iff {ρ α : Type} {search : Search α} {auto : Bool}
    {items : List (FileItem α)} :
    (∃ segs : List (Segment ρ α), parseFile search auto items = .ok segs) ↔
      ∃ st, parseItems search auto none FileState.empty items = .ok (st : FileState ρ α) ∧
        (mustHandle auto st = true →
          (itemsBlocks true items).filterMap Found.topBody = [] ∨
          ∃ body c, (itemsBlocks true items).filterMap Found.topBody = [body] ∧
            parseConfig body = .ok c ∧ c.parseOnly = false ∧
            (auto = true → st.discoveries.cppList ≠ [] → c.allowlist ≠ .all)) := by
  constructor
  · rintro ⟨segs, h⟩
    obtain ⟨st, hst, _, h2⟩ := parse_file_blocks h
    refine ⟨st, hst, fun hm => ?_⟩
    rcases h2 hm with ⟨body, c, c', h1, h3, h4, ⟨a, h5, _⟩, _⟩ | ⟨_, _, h1, _⟩
    · refine .inr ⟨body, c, h1, h3, h4, fun ha hl he => ?_⟩
      rw [ha, if_pos rfl] at h5
      rcases h5 with ⟨h5, _⟩ | ⟨_, l, h5 | h5, _⟩
      · exact hl h5
      · rw [he] at h5; cases h5
      · rw [he] at h5; cases h5
    · exact .inl h1
  · rintro ⟨st, hst, h⟩
    unfold parseFile
    rw [hst]
    dsimp only
    unfold handleDiscovered
    cases hm : mustHandle auto st with
    | false => exact ⟨_, rfl⟩
    | true =>
      obtain ⟨segs0, hr, hb⟩ := parseItems_placed true hst
      simp only [FileState.empty, List.nil_append] at hr
      subst hr
      have ht := becomes_tops hb
      rw [← topEngines_placed] at ht
      simp only [if_true]
      rcases h hm with h | ⟨body, c, h, hc, hp, ha⟩
      · rw [h] at ht
        have he : topEngines st.results = [] := by
          generalize topEngines st.results = l at ht
          cases ht
          rfl
        have htop : topEngines (st.results ++
            [Segment.autocxx (Engine.newForAutodiscover (ρ := ρ))]) =
            [Engine.newForAutodiscover] := by
          unfold topEngines at he ⊢
          rw [List.filterMap_append, he]
          rfl
        obtain ⟨e', he'⟩ := attach_total (auto := auto) (supers := st.extraSuperclasses)
          (d := st.discoveries) (e := (Engine.newForAutodiscover : Engine ρ)) rfl
          (fun _ _ => by intro h; cases h)
        simp only [he, List.isEmpty_nil, if_true, htop, he', Call.bind]
        exact ⟨_, rfl⟩
      · rw [h] at ht
        have he : topEngines st.results = [Engine.ofConfig c] := by
          generalize topEngines st.results = l at ht
          cases ht with
          | cons h1 h2 =>
            cases h2
            obtain ⟨c1, hc1, rfl⟩ := h1
            rw [hc] at hc1
            cases hc1
            rfl
        obtain ⟨e', he'⟩ := attach_total (auto := auto) (supers := st.extraSuperclasses)
          (d := st.discoveries) (e := (Engine.ofConfig c : Engine ρ))
          (by simp [Engine.ofConfig, hp]) ha
        simp only [he, List.isEmpty_cons, Bool.false_eq_true, if_false, he', Call.bind,
          List.isEmpty_nil, if_true]
        exact ⟨_, rfl⟩

/-! ## What is discovered -/

mutual
/-- The superclasses named by attributes of structs, at every depth outside bridges, in order. -/
def itemSupers {α : Type} (auto : Bool) : FileItem α → List (Except FileErr (List SubclassReq))
  | .module attrs _ items _ => if attrs.any Attr.isBridge then [] else itemsSupers auto items
  | .struct attrs name _ => [structSuperclass auto name attrs]
  | _ => []
/-- The superclasses named in some items. -/
def itemsSupers {α : Type} (auto : Bool) :
    List (FileItem α) → List (Except FileErr (List SubclassReq))
  | [] => []
  | i :: r => itemSupers auto i ++ itemsSupers auto r
end

mutual
/-- The items which are searched, with the paths of their modules, in order: everything but blocks,
bridges and modules. -/
def itemSearched {α : Type} (p : Option RustPath) : FileItem α → List (Option RustPath × α)
  | .macroCall path _ item => if path.getLast? = some "include_cpp" then [] else [(p, item)]
  | .module attrs name items _ =>
    if attrs.any Attr.isBridge then [] else itemsSearched (some (p.getD [] ++ [name])) items
  | .moduleDecl .. => []
  | .struct _ _ item => [(p, item)]
  | .other item => [(p, item)]
/-- The items searched among some items. -/
def itemsSearched {α : Type} (p : Option RustPath) :
    List (FileItem α) → List (Option RustPath × α)
  | [] => []
  | i :: r => itemSearched p i ++ itemsSearched p r
end

/-- A search which adds what it finds to what was found. -/
def Additive {α : Type} (search : Search α) : Prop :=
  ∀ p a d, search p a d = (search p a {}).map d.extend

theorem insertNew_mem (l : List String) (s t : String) : t ∈ insertNew l s ↔ t ∈ l ∨ t = s := by
  unfold insertNew
  split
  · next h => constructor
              · exact .inl
              · rintro (h' | rfl)
                · exact h'
                · exact h
  · simp

theorem foldl_insertNew_mem (b a : List String) (t : String) :
    t ∈ b.foldl insertNew a ↔ t ∈ a ∨ t ∈ b := by
  induction b generalizing a with
  | nil => simp
  | cons s r ih => rw [List.foldl_cons, ih, insertNew_mem, List.mem_cons, or_assoc]

theorem foldl_insertNew_assoc (a b c : List String) :
    c.foldl insertNew (b.foldl insertNew a) = (c.foldl insertNew b).foldl insertNew a := by
  induction c generalizing b with
  | nil => rfl
  | cons s r ih =>
    rw [List.foldl_cons, List.foldl_cons, ← ih (insertNew b s)]
    congr 1
    by_cases h : s ∈ b
    · have e1 : insertNew b s = b := if_pos h
      rw [e1]
      exact if_pos ((foldl_insertNew_mem _ _ _).2 (.inr h))
    · have e1 : insertNew b s = b ++ [s] := if_neg h
      rw [e1, List.foldl_append]; rfl

theorem extend_assoc (a b c : Discoveries) : (a.extend b).extend c = a.extend (b.extend c) := by
  unfold Discoveries.extend
  simp only [Discoveries.mk.injEq]
  exact ⟨foldl_insertNew_assoc _ _ _, List.append_assoc _ _ _, List.append_assoc _ _ _⟩

theorem extend_empty (a : Discoveries) : a.extend {} = a := by
  obtain ⟨x, y, z⟩ := a
  simp [Discoveries.extend]

theorem extend_foldl (a b : Discoveries) (l : List Discoveries) :
    a.extend (l.foldl Discoveries.extend b) = l.foldl Discoveries.extend (a.extend b) := by
  induction l generalizing b with
  | nil => rfl
  | cons d r ih => rw [List.foldl_cons, List.foldl_cons, ih, extend_assoc]

/-- What some searches find. -/
def Finds {α : Type} (search : Search α) (x : Option RustPath × α) (d : Discoveries) : Prop :=
  search x.1 x.2 {} = .ok d

theorem searchOther_disc {ρ α : Type} {search : Search α} (hs : Additive search)
    {p : Option RustPath} {i : α} {st st' : FileState ρ α}
    (h : st.searchOther search p i = .ok st') :
    st'.extraSuperclasses = st.extraSuperclasses ∧
      ∃ ds, All2 (Finds search) [(p, i)] ds ∧
        st'.discoveries = ds.foldl Discoveries.extend st.discoveries := by
  unfold FileState.searchOther at h
  rw [hs] at h
  cases hd : search p i {} with
  | error e => rw [hd] at h; cases h
  | ok d =>
    rw [hd] at h
    cases h
    exact ⟨rfl, [d], .cons hd .nil, rfl⟩

theorem deeperPath_eq (p : Option RustPath) (n : Ident) : deeperPath p n = p.getD [] ++ [n] := by
  cases p <;> rfl

mutual
theorem parseItem_disc {ρ α : Type} {search : Search α} (hs : Additive search) {auto : Bool}
    {p : Option RustPath} {st st' : FileState ρ α} :
    ∀ {i : FileItem α}, parseItem search auto p st i = .ok st' →
      (∃ ls, All2 (fun x y => x = .ok y) (itemSupers auto i) ls ∧
        st'.extraSuperclasses = st.extraSuperclasses ++ ls.flatten) ∧
      ∃ ds, All2 (Finds search) (itemSearched p i) ds ∧
        st'.discoveries = ds.foldl Discoveries.extend st.discoveries
  | .macroCall path body item, h => by
    rw [parseItem] at h
    rw [itemSearched, itemSupers]
    · split at h
      · next hp =>
        rw [if_pos hp]
        split at h
        · cases h
        · cases h
          exact ⟨⟨[], .nil, by simp⟩, [], .nil, rfl⟩
      · next hp =>
        rw [if_neg hp]
        obtain ⟨h1, h2⟩ := searchOther_disc hs h
        exact ⟨⟨[], .nil, by simp [h1]⟩, h2⟩
    · intros; contradiction
    · intros; contradiction
  | .module attrs name items item, h => by
    rw [parseItem] at h
    rw [itemSearched, itemSupers]
    split at h
    · next hp =>
      rw [if_pos hp, if_pos hp]
      cases h
      exact ⟨⟨[], .nil, by simp⟩, [], .nil, rfl⟩
    · next hp =>
      rw [if_neg hp, if_neg hp]
      split at h
      · cases h
      · next m hm =>
        obtain ⟨⟨ls, h1, h2⟩, ds, h3, h4⟩ := parseItems_disc hs hm
        cases h
        rw [deeperPath_eq] at h3
        refine ⟨⟨ls, h1, by simp [h2, FileState.empty]⟩, ds, h3, ?_⟩
        rw [h4]
        simp only [FileState.empty]
        rw [extend_foldl, extend_empty]
  | .moduleDecl attrs name item, h => by
    rw [parseItem] at h
    rw [itemSearched, itemSupers]
    · split at h
      · cases h; exact ⟨⟨[], .nil, by simp⟩, [], .nil, rfl⟩
      · cases h; exact ⟨⟨[], .nil, by simp⟩, [], .nil, rfl⟩
    · intros; contradiction
    · intros; contradiction
  | .struct attrs name item, h => by
    rw [parseItem] at h
    rw [itemSearched, itemSupers]
    split at h
    · cases h
    · next l hl =>
      obtain ⟨h1, h2⟩ := searchOther_disc hs h
      exact ⟨⟨[l], .cons hl .nil, by simp [h1]⟩, h2⟩
  | .other item, h => by
    rw [parseItem] at h
    rw [itemSearched, itemSupers]
    · obtain ⟨h1, h2⟩ := searchOther_disc hs h
      exact ⟨⟨[], .nil, by simp [h1]⟩, h2⟩
    · intros; contradiction
    · intros; contradiction
theorem parseItems_disc {ρ α : Type} {search : Search α} (hs : Additive search) {auto : Bool}
    {p : Option RustPath} {st st' : FileState ρ α} :
    ∀ {items : List (FileItem α)}, parseItems search auto p st items = .ok st' →
      (∃ ls, All2 (fun x y => x = .ok y) (itemsSupers auto items) ls ∧
        st'.extraSuperclasses = st.extraSuperclasses ++ ls.flatten) ∧
      ∃ ds, All2 (Finds search) (itemsSearched p items) ds ∧
        st'.discoveries = ds.foldl Discoveries.extend st.discoveries
  | [], h => by
    rw [parseItems] at h
    cases h
    rw [itemsSupers, itemsSearched]
    exact ⟨⟨[], .nil, by simp⟩, [], .nil, rfl⟩
  | i :: r, h => by
    rw [parseItems] at h
    split at h
    · cases h
    · next st1 h1 =>
      obtain ⟨⟨ls, a1, a2⟩, ds, a3, a4⟩ := parseItem_disc hs h1
      obtain ⟨⟨ls', b1, b2⟩, ds', b3, b4⟩ := parseItems_disc hs h
      rw [itemsSupers, itemsSearched]
      refine ⟨⟨ls ++ ls', a1.append b1, by rw [b2, a2]; simp⟩, ds ++ ds', a3.append b3, ?_⟩
      rw [b4, a4, List.foldl_append]
end

/-- C40: what a file's top block is given is what the structs' attributes name and what the searches
of all items at every depth outside bridges find, in order, together. -/
theorem parse_file_discovers {ρ α : Type} {search : Search α} (hs : Additive search) {auto : Bool}
    {items : List (FileItem α)} {st : FileState ρ α}
    (h : parseItems search auto none FileState.empty items = .ok st) :
    (∃ ls, All2 (fun x y => x = .ok y) (itemsSupers auto items) ls ∧
      st.extraSuperclasses = ls.flatten) ∧
    ∃ ds, All2 (Finds search) (itemsSearched none items) ds ∧
      st.discoveries.rustFuns = ds.flatMap Discoveries.rustFuns ∧
      st.discoveries.rustTypes = ds.flatMap Discoveries.rustTypes ∧
      st.discoveries.cppList.Nodup ∧
      ∀ s, s ∈ st.discoveries.cppList ↔ ∃ d ∈ ds, s ∈ d.cppList := by
  obtain ⟨⟨ls, a1, a2⟩, ds, a3, a4⟩ := parseItems_disc hs h
  refine ⟨⟨ls, a1, by simpa [FileState.empty] using a2⟩, ds, a3, ?_⟩
  rw [a4]
  clear a4 a3
  have key : ∀ (ds : List Discoveries) (d0 : Discoveries), d0.cppList.Nodup →
      (ds.foldl Discoveries.extend d0).rustFuns = d0.rustFuns ++ ds.flatMap Discoveries.rustFuns ∧
      (ds.foldl Discoveries.extend d0).rustTypes =
        d0.rustTypes ++ ds.flatMap Discoveries.rustTypes ∧
      (ds.foldl Discoveries.extend d0).cppList.Nodup ∧
      ∀ s, s ∈ (ds.foldl Discoveries.extend d0).cppList ↔
        s ∈ d0.cppList ∨ ∃ d ∈ ds, s ∈ d.cppList := by
    intro ds
    induction ds with
    | nil => intro d0 h0; simp [h0]
    | cons d r ih =>
      intro d0 h0
      have hn : ∀ (b a : List String), a.Nodup → (b.foldl insertNew a).Nodup := by
        intro b
        induction b with
        | nil => intro a ha; exact ha
        | cons s b ihb =>
          intro a ha
          rw [List.foldl_cons]
          refine ihb _ ?_
          unfold insertNew
          split
          · exact ha
          · next hs =>
            rw [List.nodup_append]
            refine ⟨ha, by simp, ?_⟩
            intro x hx y hy
            rw [List.mem_singleton] at hy
            subst hy
            rintro rfl
            exact hs hx
      obtain ⟨i1, i2, i3, i4⟩ := ih (d0.extend d) (hn _ _ h0)
      rw [List.foldl_cons]
      refine ⟨by rw [i1]; simp [Discoveries.extend], by rw [i2]; simp [Discoveries.extend], i3, ?_⟩
      intro s
      rw [i4]
      simp [Discoveries.extend, foldl_insertNew_mem, or_assoc]
  obtain ⟨k1, k2, k3, k4⟩ := key ds {} List.nodup_nil
  refine ⟨by simpa [FileState.empty] using k1, by simpa [FileState.empty] using k2,
    by simpa [FileState.empty] using k3, fun s => by simpa [FileState.empty] using k4 s⟩

/-! ## Generating a file's blocks -/

/-- What generating makes of an engine or bridge. -/
inductive Generates {ρ α : Type} (gen : Engine ρ → Call GenErr (Engine ρ)) :
    Placed ρ α → Placed ρ α → Prop
  | engine {t e e'} (h : gen e = .ok e') : Generates gen (.engine t e) (.engine t e')
  | bridge {a} : Generates gen (.bridge a) (.bridge a)

/-- The engine. -/
def Placed.engine? {ρ α : Type} : Placed ρ α → Option (Engine ρ)
  | .engine _ e => some e
  | .bridge _ => none

/-- The names of the modules of some engines. -/
def placedNames {ρ α : Type} (l : List (Placed ρ α)) : List Ident :=
  (l.filterMap Placed.engine?).map fun e => e.config.getModName

theorem placedNames_append {ρ α : Type} (l m : List (Placed ρ α)) :
    placedNames (l ++ m) = placedNames l ++ placedNames m := by
  simp [placedNames]

/-- Names which are fresh and distinct. -/
def Fresh (found names : List Ident) : Prop := names.Nodup ∧ ∀ n ∈ names, n ∉ found

theorem fresh_append {found a b : List Ident} :
    Fresh found (a ++ b) ↔ Fresh found a ∧ Fresh (found ++ a) b := by
  unfold Fresh
  rw [List.nodup_append]
  constructor
  · rintro ⟨⟨h1, h2, h3⟩, h4⟩
    refine ⟨⟨h1, fun n hn => h4 n (List.mem_append_left _ hn)⟩, h2, fun n hn hm => ?_⟩
    rcases List.mem_append.1 hm with hm | hm
    · exact h4 n (List.mem_append_right _ hn) hm
    · exact h3 n hm n hn rfl
  · rintro ⟨⟨h1, h2⟩, h3, h4⟩
    refine ⟨⟨h1, h3, ?_⟩, ?_⟩
    · rintro x hx y hy rfl
      exact h4 x hy (List.mem_append_right _ hx)
    · intro n hn hm
      rcases List.mem_append.1 hn with hn | hn
      · exact h2 n hn hm
      · exact h4 n hn (List.mem_append_left _ hm)

mutual
theorem resolve_seg {ρ α : Type} {nightly : Bool} {hash : Config → Nat} {conv : Config → Option ρ}
    {found found' : List Ident} (top : Bool) :
    ∀ {s s' : Segment ρ α}, s.resolve nightly hash conv found = .ok (s', found') →
      All2 (Generates (Engine.generate nightly hash conv)) (s.placed top) (s'.placed top) ∧
        found' = found ++ placedNames (s.placed top) ∧ Fresh found (placedNames (s.placed top))
  | .autocxx e, s', h => by
    rw [Segment.resolve] at h
    unfold resolveEngine at h
    split at h
    · cases h
    · next hf =>
      cases hg : e.generate nightly hash conv with
      | err x => rw [hg] at h; cases h
      | panic => rw [hg] at h; cases h
      | ok e' =>
        rw [hg] at h
        cases h
        rw [Segment.placed, Segment.placed]
        refine ⟨.cons (.engine hg) .nil, rfl, ?_⟩
        refine ⟨by simp [placedNames, Placed.engine?], fun n hn => ?_⟩
        rw [placedNames] at hn
        simp only [List.filterMap_cons, Placed.engine?, List.filterMap_nil, List.map_cons,
          List.map_nil, List.mem_singleton] at hn
        rw [hn]
        exact hf
  | .module l, s', h => by
    rw [Segment.resolve] at h
    cases hr : resolveAll nightly hash conv found l with
    | err x => rw [hr] at h; cases h
    | panic => rw [hr] at h; cases h
    | ok x =>
      obtain ⟨l', f'⟩ := x
      have ih := resolve_segs false hr
      rw [hr] at h
      cases h
      rw [Segment.placed, Segment.placed]
      exact ih
  | .cxx a, s', h => by
    rw [Segment.resolve] at h
    cases h
    rw [Segment.placed]
    exact ⟨.cons .bridge .nil, by simp [placedNames, Placed.engine?],
      ⟨List.nodup_nil, fun _ h => nomatch h⟩⟩
  | .other, s', h => by
    rw [Segment.resolve] at h
    cases h
    rw [Segment.placed]
    exact ⟨.nil, by simp [placedNames], by simp [placedNames, Fresh]⟩
theorem resolve_segs {ρ α : Type} {nightly : Bool} {hash : Config → Nat} {conv : Config → Option ρ}
    {found found' : List Ident} (top : Bool) :
    ∀ {l l' : List (Segment ρ α)}, resolveAll nightly hash conv found l = .ok (l', found') →
      All2 (Generates (Engine.generate nightly hash conv)) (segPlaced top l) (segPlaced top l') ∧
        found' = found ++ placedNames (segPlaced top l) ∧
        Fresh found (placedNames (segPlaced top l))
  | [], l', h => by
    rw [resolveAll] at h
    cases h
    rw [segPlaced]
    exact ⟨.nil, by simp [placedNames], by simp [placedNames, Fresh]⟩
  | s :: r, l', h => by
    rw [resolveAll] at h
    cases hs : s.resolve nightly hash conv found with
    | err x => rw [hs] at h; cases h
    | panic => rw [hs] at h; cases h
    | ok x =>
      obtain ⟨s', f1⟩ := x
      rw [hs] at h
      simp only [Call.bind] at h
      cases hr : resolveAll nightly hash conv f1 r with
      | err x => rw [hr] at h; cases h
      | panic => rw [hr] at h; cases h
      | ok x =>
        obtain ⟨r', f2⟩ := x
        obtain ⟨a1, a2, a3⟩ := resolve_seg top hs
        obtain ⟨b1, b2, b3⟩ := resolve_segs top hr
        rw [hr] at h
        cases h
        rw [segPlaced, segPlaced, placedNames_append]
        subst a2
        exact ⟨a1.append b1, by rw [b2, List.append_assoc], fresh_append.2 ⟨a3, b3⟩⟩
end

mutual
theorem resolve_seg_total {ρ α : Type} {nightly : Bool} {hash : Config → Nat}
    {conv : Config → Option ρ} {found : List Ident} (top : Bool) :
    ∀ {s : Segment ρ α}, Fresh found (placedNames (s.placed top)) →
      (∀ p ∈ s.placed top, ∀ e, p.engine? = some e →
        ∃ e', e.generate nightly hash conv = .ok e') →
      ∃ s', s.resolve nightly hash conv found = .ok (s', found ++ placedNames (s.placed top))
  | .autocxx e, hf, hg => by
    rw [Segment.placed] at hf hg ⊢
    obtain ⟨e', he'⟩ := hg _ (List.mem_singleton.2 rfl) e rfl
    rw [Segment.resolve]
    unfold resolveEngine
    rw [if_neg (hf.2 e.config.getModName (by simp [placedNames, Placed.engine?])), he']
    exact ⟨_, rfl⟩
  | .module l, hf, hg => by
    rw [Segment.placed] at hf hg ⊢
    obtain ⟨l', h⟩ := resolve_segs_total false hf hg
    rw [Segment.resolve, h]
    exact ⟨_, rfl⟩
  | .cxx a, _, _ => ⟨.cxx a, by
      rw [Segment.resolve, Segment.placed]; simp [placedNames, Placed.engine?]⟩
  | .other, _, _ => ⟨.other, by rw [Segment.resolve, Segment.placed]; simp [placedNames]⟩
theorem resolve_segs_total {ρ α : Type} {nightly : Bool} {hash : Config → Nat}
    {conv : Config → Option ρ} {found : List Ident} (top : Bool) :
    ∀ {l : List (Segment ρ α)}, Fresh found (placedNames (segPlaced top l)) →
      (∀ p ∈ segPlaced top l, ∀ e, p.engine? = some e →
        ∃ e', e.generate nightly hash conv = .ok e') →
      ∃ l', resolveAll nightly hash conv found l =
        .ok (l', found ++ placedNames (segPlaced top l))
  | [], _, _ => ⟨[], by rw [resolveAll, segPlaced]; simp [placedNames]⟩
  | s :: r, hf, hg => by
    rw [segPlaced, placedNames_append] at hf
    rw [segPlaced] at hg
    obtain ⟨f1, f2⟩ := fresh_append.1 hf
    obtain ⟨s', hs⟩ := resolve_seg_total top f1 fun p hp => hg p (List.mem_append_left _ hp)
    obtain ⟨r', hr⟩ := resolve_segs_total top f2 fun p hp => hg p (List.mem_append_right _ hp)
    refine ⟨s' :: r', ?_⟩
    rw [resolveAll, hs]
    simp only [Call.bind]
    rw [hr, segPlaced, placedNames_append, List.append_assoc]
end

/-- C40: a file's blocks are all generated exactly when their modules have different names and each
block can be generated; and then each engine has its own result, in place. -/
theorem resolve_all_ok_iff {ρ α : Type} {nightly : Bool} {hash : Config → Nat}
    {conv : Config → Option ρ} {segs : List (Segment ρ α)} :
    (∃ segs' found, resolveAll nightly hash conv [] segs = .ok (segs', found)) ↔
      (placedNames (segPlaced true segs)).Nodup ∧
      ∀ p ∈ segPlaced true segs, ∀ e, p.engine? = some e →
        ∃ e', e.generate nightly hash conv = .ok e' := by
  constructor
  · rintro ⟨segs', found, h⟩
    obtain ⟨h1, _, h3⟩ := resolve_segs true h
    refine ⟨h3.1, fun p hp e he => ?_⟩
    obtain ⟨q, _, hq⟩ := h1.left hp
    cases hq with
    | engine hg => cases he; exact ⟨_, hg⟩
    | bridge => cases he
  · rintro ⟨h1, h2⟩
    obtain ⟨l', h⟩ := resolve_segs_total true (found := []) ⟨h1, by simp⟩ h2
    exact ⟨_, _, h⟩

/-- C40: generating keeps every block and bridge in its place. -/
theorem resolve_all_places {ρ α : Type} {nightly : Bool} {hash : Config → Nat}
    {conv : Config → Option ρ} {segs segs' : List (Segment ρ α)} {found : List Ident}
    (h : resolveAll nightly hash conv [] segs = .ok (segs', found)) :
    All2 (Generates (Engine.generate nightly hash conv)) (segPlaced true segs)
      (segPlaced true segs') := (resolve_segs true h).1

/-! ## What is built -/

/-- The block or bridge, wherever it is. -/
def Placed.toCpp {ρ α : Type} : Placed ρ α → CppItem ρ α
  | .engine _ e => .engine e
  | .bridge a => .bridge a

mutual
theorem buildables_placed {ρ α : Type} (top : Bool) :
    ∀ s : Segment ρ α, s.buildables = (s.placed top).map Placed.toCpp
  | .autocxx e => by rw [Segment.buildables, Segment.placed]; rfl
  | .cxx a => by rw [Segment.buildables, Segment.placed]; rfl
  | .module l => by rw [Segment.buildables, Segment.placed, segBuildables_placed]
  | .other => by rw [Segment.buildables, Segment.placed]; rfl
theorem segBuildables_placed {ρ α : Type} (top : Bool) :
    ∀ l : List (Segment ρ α), segBuildables l = (segPlaced top l).map Placed.toCpp
  | [] => by rw [segBuildables, segPlaced]; rfl
  | s :: r => by
    rw [segBuildables, segPlaced, List.map_append, ← buildables_placed top s,
      ← segBuildables_placed top r]
end

mutual
theorem engines_placed {ρ α : Type} (top : Bool) :
    ∀ s : Segment ρ α, s.engines = (s.placed top).filterMap Placed.engine?
  | .autocxx e => by rw [Segment.engines, Segment.placed]; rfl
  | .cxx a => by
    rw [Segment.engines, Segment.placed]
    · rfl
    · intros; contradiction
    · intros; contradiction
  | .module l => by rw [Segment.engines, Segment.placed, segEngines_placed]
  | .other => by
    rw [Segment.engines, Segment.placed]
    · rfl
    · intros; contradiction
    · intros; contradiction
theorem segEngines_placed {ρ α : Type} (top : Bool) :
    ∀ l : List (Segment ρ α), segEngines l = (segPlaced top l).filterMap Placed.engine?
  | [] => by rw [segEngines, segPlaced]; rfl
  | s :: r => by
    rw [segEngines, segPlaced, List.filterMap_append, ← engines_placed top s,
      ← segEngines_placed top r]
end

/-- C40: what the generators go through is every block and bridge of the file, at every depth, in
order. -/
theorem file_iterators {ρ α : Type} (segs : List (Segment ρ α)) :
    segBuildables segs = (segPlaced true segs).map Placed.toCpp ∧
      segEngines segs = (segPlaced true segs).filterMap Placed.engine? :=
  ⟨segBuildables_placed true segs, segEngines_placed true segs⟩

/-! ## Examples and what is not so -/

/-- A search which finds one Rust function in items called "fn" and a C++ name in items called
"use". -/
def exSearch : Search String := fun _ a d =>
  .ok (d.extend (if a = "fn" then { rustFuns := [⟨["m", "f"], ⟨"f", "()", none⟩, false⟩] }
    else if a = "use" then { cppList := ["A", "B"] } else {}))

theorem exSearch_additive : Additive exSearch := by
  intro p a d
  simp only [exSearch, Except.map]
  rw [← extend_assoc, extend_empty]

theorem parse_empty_body : parseConfig [] = .ok {} := by simp [parseConfig, parseLoop]

theorem parse_only_body : parseConfig [.ident "parse_only", .bang, .paren []] =
    .ok { parseOnly := true } := by
  simp [parseConfig, parseLoop, rustReserved, runDirective, directive]

theorem parse_generate_body : parseConfig [.ident "generate", .bang, .paren [.lit "A"]] =
    .ok { allowlist := .specific [.item "A"] } := by
  simp [parseConfig, parseLoop, rustReserved, runDirective, directive, dGenerate, pLit, pushAllow,
    Allowlist.push, bind, Except.bind]

theorem parse_superclass_body : parseSubclassAttrs [.ident "superclass", .paren [.lit "Sup"]] =
    .ok { superclass := some "Sup" } := by
  simp [parseSubclassAttrs, pSubclassAttrs, rustReserved]

/-- A file with a block without directives in a module. -/
def exNestedFile : List (FileItem String) :=
  [.module [] "m" [.macroCall ["include_cpp"] [] "block"] "mod"]

/-- C40 is false for blocks within modules: a block which gives no allowlist is fine at the top of a
file, but within a module its allowlist is never decided, and generating it panics. -/
theorem nested_block_panics_false :
    (∃ segs : List (Segment Nat String), parseFile exSearch true exNestedFile = .ok segs ∧
      resolveAll true (fun _ => 0) (fun _ => some 1) [] segs = .panic) ∧
    ∃ (segs : List (Segment Nat String)) (x : List (Segment Nat String) × List Ident),
      parseFile exSearch true [.macroCall ["include_cpp"] [] "block"] = .ok segs ∧
      resolveAll true (fun _ => 0) (fun _ => some 1) [] segs = .ok x := by
  refine ⟨⟨[.module [.autocxx (Engine.ofConfig {})]], ?_, ?_⟩,
    [.autocxx ⟨({} : Config).confirmComplete, .notGenerated⟩], _, ?_, rfl⟩
  · simp [parseFile, parseItems, parseItem, exNestedFile, parse_empty_body, FileState.empty,
      Discoveries.extend, handleDiscovered, mustHandle, Discoveries.foundRust,
      Discoveries.foundAllowlist, Call.bind, confirmTop]
  · rfl
  · simp [parseFile, parseItems, parseItem, parse_empty_body, FileState.empty,
      handleDiscovered, mustHandle, Discoveries.foundRust,
      Discoveries.foundAllowlist, Call.bind, confirmTop, Engine.ofConfig]

/-- C40 is false for what is discovered in a file whose only block is within a module: a second
block is made for it, with the same name, and generating fails. -/
theorem nested_block_conflict_false :
    ∃ segs : List (Segment Nat String),
      parseFile exSearch false [.module [] "m"
        [.macroCall ["include_cpp"] [.ident "generate", .bang, .paren [.lit "A"]] "block",
          .other "fn"] "mod"] = .ok segs ∧
      resolveAll true (fun _ => 0) (fun _ => some 1) [] segs = .err .conflictingModNames := by
  refine ⟨[.module [.autocxx (Engine.ofConfig { allowlist := .specific [.item "A"] }), .other],
    .autocxx ⟨({ externRustFuns := [⟨["m", "f"], ⟨"f", "()", none⟩, false⟩] } : Config).confirmComplete,
      .notGenerated⟩], ?_, rfl⟩
  simp [parseFile, parseItems, parseItem, parse_generate_body, FileState.empty, exSearch,
    Discoveries.extend, handleDiscovered, mustHandle, Discoveries.foundRust,
    FileState.searchOther, Call.bind, confirmTop, topEngines, attach,
    Engine.newForAutodiscover, Engine.configMut, updateFirst]

/-- C40 is false for blocks for parsing only: with something discovered in the same file, parsing
panics. -/
theorem parse_only_panics_false :
    parseFile (ρ := Nat) exSearch false
      [.macroCall ["include_cpp"] [.ident "parse_only", .bang, .paren []] "block", .other "fn"] =
    .panic := by
  simp [parseFile, parseItems, parseItem, parse_only_body, FileState.empty, exSearch,
    Discoveries.extend, handleDiscovered, mustHandle, Discoveries.foundRust,
    FileState.searchOther, Call.bind, topEngines, attach,
    Engine.ofConfig, Engine.configMut]

/-- A file with a block at the top, items which use C++ names and a bridge. -/
def exFile : List (FileItem String) :=
  [.other "use", .macroCall ["autocxx", "include_cpp"] [] "block",
    .module [⟨false, ["cxx", "bridge"], .pathOnly⟩] "b" [.other "fn"] "bridge",
    .struct [⟨false, ["subclass"], .list [.ident "superclass", .paren [.lit "Sup"]]⟩] "S" "plain",
    .module [] "m" [.other "fn"] "mod"]

/-- The block gets the C++ names used, the subclass and the Rust function, but nothing from the bridge. -/
example : parseFile (ρ := Nat) exSearch true exFile =
    .ok [.other,
      .autocxx ⟨{ allowlist := .specific [.item "A", .item "B"], subclasses := [⟨"Sup", "S"⟩],
                  externRustFuns := [⟨["m", "f"], ⟨"f", "()", none⟩, false⟩] }, .notGenerated⟩,
      .cxx "bridge", .other, .module [.other]] := by
  simp [parseFile, parseItems, parseItem, parse_empty_body, FileState.empty, exSearch, exFile,
    Discoveries.extend, handleDiscovered, mustHandle, Discoveries.foundRust,
    FileState.searchOther, Call.bind, topEngines, attach, structSuperclass, Attr.isSubclass,
    Attr.isBridge, parse_superclass_body,
    Engine.ofConfig, Engine.configMut, updateFirst, confirmTop, insertNew, pushAll, Allowlist.push,
    Config.confirmComplete]

/-- A block which is edited, generated and asked for its output. -/
example : engineRun (ρ := Nat) true (fun _ => 0) ⟨{}, .notGenerated⟩
    [.edit Config.confirmComplete, .generate (fun _ => none), .generate (fun _ => some 3),
      .rustOutput, .cppOutput] =
    some (⟨({} : Config).confirmComplete, .generated 3⟩,
      [.done, .failed .conversion, .done, .rust ({} : Config).confirmComplete (some 3), .cpp 3]) :=
  rfl

/-- Generating twice panics, as does editing after generating. -/
example : engineRun (ρ := Nat) true (fun _ => 0) ⟨({} : Config).confirmComplete, .notGenerated⟩
      [.generate (fun _ => some 3), .generate (fun _ => some 3)] = none ∧
    engineRun (ρ := Nat) true (fun _ => 0) ⟨({} : Config).confirmComplete, .notGenerated⟩
      [.generate (fun _ => some 3), .edit fun c => c] = none := ⟨rfl, rfl⟩

end Verif
