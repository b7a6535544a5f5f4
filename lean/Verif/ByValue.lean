import Verif.Deps

/-!
# Which types may be passed by value: `ByValueChecker`

engine/src/conversion/analysis/pod/byvalue_checker.rs.
-/

set_option autoImplicit false

namespace Verif

/-- `PodState`: engine/src/conversion/analysis/pod/byvalue_checker.rs:22-28. -/
inductive PodState where
  | unsafePod (msg : String)
  | safe
  | isPod
  | alias (target : QName)
deriving DecidableEq, Repr

/-- `byvalue_checker::StructDetails`: engine/src/conversion/analysis/pod/byvalue_checker.rs:30-42. -/
structure PodDetails where
  state : PodState
  deps : List QName := []
deriving DecidableEq, Repr

/-- `ByValueChecker::results`: engine/src/conversion/analysis/pod/byvalue_checker.rs:54-57. -/
abbrev ByValue := AMap QName PodDetails

/-- Whether the type of a known type is safe by value, as a state:
engine/src/conversion/analysis/pod/byvalue_checker.rs:62-67. -/
def knownPodState (tn : QName) (byValueSafe : Bool) : PodState :=
  if byValueSafe then .isPod else .unsafePod s!"type {tn.display} is not safe for POD"

/-- `ByValueChecker::new`: engine/src/conversion/analysis/pod/byvalue_checker.rs:60-71. The keys given
by `get_pod_safe_types` are distinct, so inserting them one after the other is a map. `none` is a panic
in `get_pod_safe_types`. -/
def byValueNew : Option ByValue :=
  podSafeTypes.map fun m => m.map fun e => (e.1, ⟨knownPodState e.1 e.2, []⟩)

/-- The insertion of blocklisted types: engine/src/conversion/analysis/pod/byvalue_checker.rs:80-86. -/
def ingestBlocklist (r : ByValue) (l : List String) : ByValue :=
  l.foldl (init := r) fun (r : ByValue) b =>
    let tn := QName.ofCppName b
    r.insert tn ⟨.unsafePod s!"type {tn.display} is on the blocklist", []⟩

/-- `ByValueChecker::ingest_nonpod_type`: engine/src/conversion/analysis/pod/byvalue_checker.rs:192-198. -/
def nonPodTypedefState (n : QName) : PodState :=
  .unsafePod s!"Type {n.display} is a typedef to a complex type"

/-- What a typedef is recorded as: engine/src/conversion/analysis/pod/byvalue_checker.rs:95-123. Both
kinds of typedef (`type` and `use`) are represented by their target. `none` is a panic in
`from_type_path`. -/
def typedefPodState (n : QName) (target : Ty) : Option PodState :=
  match target with
  | .path segs _ =>
    (QName.ofTypePath segs).bind fun t =>
      match considerSubstitution t with
      | some p => (QName.ofTypePath p).map .alias
      | none => some (nonPodTypedefState n)
  | _ => some (nonPodTypedefState n)

/-- The first loop over the APIs: engine/src/conversion/analysis/pod/byvalue_checker.rs:92-133. -/
def ingestNonStructs : List TypedefApi → ByValue → Option ByValue
  | [], r => some r
  | .typedef n _ _ a :: l, r =>
    (typedefPodState n.name a.target).bind fun s => ingestNonStructs l (r.insert n.name ⟨s, []⟩)
  | .enum n _ :: l, r => ingestNonStructs l (r.insert n.name ⟨.isPod, []⟩)
  | .externCppType n true _ :: l, r => ingestNonStructs l (r.insert n.name ⟨.isPod, []⟩)
  | _ :: l, r => ingestNonStructs l r

/-- `ByValueChecker::get_field_types`: engine/src/conversion/analysis/pod/byvalue_checker.rs:256-266.
Fields which are not paths (references, pointers, arrays) are skipped. `none` is a panic in
`from_type_path`. -/
def fieldPathTypes : List (Ident × Bool × Ty) → Option (List QName)
  | [] => some []
  | (_, _, .path segs _) :: l =>
    (QName.ofTypePath segs).bind fun q => (fieldPathTypes l).map (q :: ·)
  | _ :: l => fieldPathTypes l

/-- `ByValueChecker::has_vtable`: engine/src/conversion/analysis/pod/byvalue_checker.rs:268-275. -/
def hasVtable (d : StructDetails) : Bool := d.fields.any fun f => f.1 = "vtable_"

/-- The loop over the field types in `ingest_struct`:
engine/src/conversion/analysis/pod/byvalue_checker.rs:153-181. -/
def fieldSafety (r : ByValue) (tyname : QName) : List QName → PodState
  | [] => .safe
  | t :: l =>
    match r.get? t with
    | none =>
      if t.name = "__BindgenUnionField" then
        .unsafePod s!"Type {tyname.display} could not be POD because it is a union"
      else if t.name = "__BindgenBitfieldUnit" then
        .unsafePod s!"Type {tyname.display} could not be POD because it is a bitfield"
      else
        .unsafePod s!"Type {tyname.display} could not be POD because its dependent type {t.display} isn't known"
    | some ⟨.unsafePod reason, _⟩ =>
      .unsafePod s!"Type {tyname.display} could not be POD because its dependent type {t.display} isn't safe to be POD. Because: {reason}"
    | some _ => fieldSafety r tyname l

/-- What a struct is recorded as, given its field types:
engine/src/conversion/analysis/pod/byvalue_checker.rs:148-189. -/
def structPod (r : ByValue) (tyname : QName) (d : StructDetails) (fields : List QName) : PodDetails :=
  ⟨if hasVtable d then
      .unsafePod s!"Type {tyname.display} could not be POD because it has virtual functions."
    else fieldSafety r tyname fields, fields⟩

/-- The second loop over the APIs, calling `ingest_struct`:
engine/src/conversion/analysis/pod/byvalue_checker.rs:134-138. The struct item's own identifier is
taken to be the last segment of the API's name (they are made together in parse_bindgen.rs). -/
def ingestStructs : List TypedefApi → ByValue → Option ByValue
  | [], r => some r
  | .struct n d _ :: l, r =>
    (fieldPathTypes d.fields).bind fun fs =>
      ingestStructs l (r.insert n.name (structPod r n.name d fs))
  | _ :: l, r => ingestStructs l r

/-- The outcome of resolving the requests. -/
inductive PodOutcome where
  | ok (r : ByValue)
  | err (msg : String)
  /-- The `while` loop never ends. -/
  | loops
  /-- A panic. -/
  | panic

/-- Number of entries whose state is an alias. -/
def aliasCount (r : ByValue) : Nat :=
  r.countP fun e => match e.2.state with | .alias _ => true | _ => false

/-- Number of dependencies of the entries which are safe but not yet POD. -/
def pendingDeps (r : ByValue) : Nat :=
  (r.map fun e => if e.2.state = .safe then e.2.deps.length else 0).sum

theorem aliasCount_insert (r : ByValue) (q : QName) (d d' : PodDetails) (h : r.get? q = some d) :
    aliasCount (r.insert q d') + (match d.state with | .alias _ => 1 | _ => 0) =
      aliasCount r + (match d'.state with | .alias _ => 1 | _ => 0) := by
  induction r with
  | nil => simp at h
  | cons e r ih =>
    obtain ⟨k, v⟩ := e
    by_cases hk : k = q
    · simp only [AMap.get?, hk, if_true, Option.some.injEq] at h
      subst h
      simp only [AMap.insert, hk, if_true, aliasCount, List.countP_cons]
      cases v.state <;> cases d'.state <;> simp
    · simp only [AMap.get?, hk, if_false] at h
      have := ih h
      simp only [aliasCount] at this ⊢
      simp only [AMap.insert, hk, if_false, List.countP_cons]
      omega

theorem pendingDeps_insert (r : ByValue) (q : QName) (d d' : PodDetails) (h : r.get? q = some d) :
    pendingDeps (r.insert q d') + (if d.state = .safe then d.deps.length else 0) =
      pendingDeps r + (if d'.state = .safe then d'.deps.length else 0) := by
  induction r with
  | nil => simp at h
  | cons e r ih =>
    obtain ⟨k, v⟩ := e
    by_cases hk : k = q
    · simp only [AMap.get?, hk, if_true, Option.some.injEq] at h
      subst h
      simp only [AMap.insert, hk, if_true, pendingDeps, List.map_cons, List.sum_cons]
      omega
    · simp only [AMap.get?, hk, if_false] at h
      have := ih h
      simp only [pendingDeps] at this ⊢
      simp only [AMap.insert, hk, if_false, List.map_cons, List.sum_cons]
      omega

/-- `ByValueChecker::satisfy_requests`: engine/src/conversion/analysis/pod/byvalue_checker.rs:200-235.
The vector of requests is given with its last element first, as the code takes requests from the end.
The branch at line 225 for an alias whose target has no entry pushes the target and then the alias
again; the alias is taken next, in the same state, so the loop never ends: `loops`. -/
def satisfyRequests (r : ByValue) (requests : List QName) : PodOutcome :=
  match requests with
  | [] => .ok r
  | q :: rest =>
    match _h : r.get? q with
    | none => .err s!"Unable to make {q.display} POD because we never saw a struct definition"
    | some ⟨.unsafePod msg, _⟩ => .err msg
    | some ⟨.isPod, _⟩ => satisfyRequests r rest
    | some ⟨.safe, ds⟩ => satisfyRequests (r.insert q ⟨.isPod, ds⟩) (ds.reverse ++ rest)
    | some ⟨.alias t, ds⟩ =>
      match r.get? t with
      | none => .loops
      | some dt => satisfyRequests (r.insert q ⟨dt.state, ds⟩) rest
termination_by (aliasCount r, requests.length + pendingDeps r)
decreasing_by
  · simp_wf; right; omega
  · have h1 := aliasCount_insert r q _ ⟨.isPod, ds⟩ _h
    have h2 := pendingDeps_insert r q _ ⟨.isPod, ds⟩ _h
    simp at h1 h2
    simp only [List.length_append, List.length_reverse, List.length_cons]
    rw [h1]
    apply Prod.Lex.right
    omega
  · have h1 := aliasCount_insert r q _ ⟨dt.state, ds⟩ _h
    have h2 := pendingDeps_insert r q _ ⟨dt.state, ds⟩ _h
    simp only [List.length_cons] at *
    cases hs : dt.state with
    | alias t' =>
      rw [hs] at h1 h2; simp at h1 h2
      rw [h1]; apply Prod.Lex.right; omega
    | _ =>
      rw [hs] at h1; simp at h1
      apply Prod.Lex.left; omega

/-- Everything `new_from_apis` records before the requests are resolved:
engine/src/conversion/analysis/pod/byvalue_checker.rs:79-138. -/
def byValueIngest (apis : List TypedefApi) (cfg : Config) : Option ByValue :=
  byValueNew.bind fun r =>
    (ingestNonStructs apis (ingestBlocklist r cfg.blocklist)).bind fun r => ingestStructs apis r

/-- `ByValueChecker::new_from_apis`: engine/src/conversion/analysis/pod/byvalue_checker.rs:75-146. -/
def byValueFromApis (apis : List TypedefApi) (cfg : Config) : PodOutcome :=
  match byValueIngest apis cfg with
  | none => .panic
  | some r => satisfyRequests r (cfg.podRequests.map QName.ofCppName).reverse

/-- `ByValueChecker::is_pod`: engine/src/conversion/analysis/pod/byvalue_checker.rs:242-250. -/
def ByValue.isPod (r : ByValue) (q : QName) : Bool :=
  match r.get? q with
  | some ⟨.isPod, _⟩ => true
  | _ => false

end Verif
