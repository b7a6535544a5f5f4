import Verif.SubclassMacro
import Verif.SubclassAttrsProps
import Verif.RsPipeProps
import Verif.RsDeclProps
import Verif.ParseFileProps

/-!
# C73: a Rust struct marked as a subclass fits the code which is generated for it
-/

set_option autoImplicit false

namespace Verif

/-! ### Specification -/

/-- The fields which the user wrote, if they have names. -/
def MacroFields.written : MacroFields → Option (List MacroField)
  | .named l => some l
  | .unit => some []
  | .unnamed _ => none

/-- The attribute's arguments ask for the object to own itself. -/
def AsksSelfOwned (attr : List Tok) : Prop := ∃ a, parseSubclassAttrs attr = .ok a ∧ a.selfOwned = true

/-- The struct is refused for this reason. -/
inductive SubclassRefused (attr : List Tok) : MacroItem → MacroErr → Prop
  | notStruct {i} (h : ∀ s, i ≠ .struct s) : SubclassRefused attr i .notStruct
  | notPublic {s} (h : s.vis ≠ .pub) : SubclassRefused attr (.struct s) .notPublic
  | tuple {s} (hv : s.vis = .pub) (h : s.fields.written = none) : SubclassRefused attr (.struct s) .tupleStruct
  | attributes {s} (hv : s.vis = .pub) (hf : s.fields.written ≠ none) (h : ∀ a, parseSubclassAttrs attr ≠ .ok a) :
      SubclassRefused attr (.struct s) .badAttributes

/-- The path is that of a type which the generated code has, for code beside the module it is in: the module has the path's first
segment as its name, it has `pub use cxxbridge::name` for the second, and the bridge has a type of this name. -/
def RsFile.PeerAt (f : RsFile) (path : List Ident) : Prop :=
  ∃ name, path = [f.modName, name] ∧ f.Has [] (.useBridge ["cxxbridge", name] none) ∧
    ∃ ns cxx path', .type ns cxx name path' ∈ f.externC

/-- The struct which an item says `super::` of. -/
def OutDecl.struct : OutDecl → Option Ident
  | .implSupers _ s _ | .holder _ s | .peerConstructor _ s _ | .asRef _ s _ _ | .pinMut s _ _ | .asUniquePtr s _ _ _ _ => some s
  | _ => none

/-! ### What the attribute does -/

/-- **C73**: which structs the attribute accepts, and what it makes of them. All that the user wrote is kept; one field is added at
the end, and it is the field which the trait's functions give; the object owns itself just if that was asked for. -/
theorem subclass_expands_iff (attr : List Tok) (i : MacroItem) (x : SubclassExpansion) :
    expandSubclass attr i = .ok x ↔ ∃ s l, i = .struct s ∧ s.vis = .pub ∧ s.fields.written = some l ∧
      (∃ a, parseSubclassAttrs attr = .ok a) ∧
      x.item = { s with fields := .named (l ++ [⟨.inherited, "cpp_peer", .peerHolder ["ffi", s.ident ++ "Cpp"]⟩]) } ∧
      x.peer = ["ffi", s.ident ++ "Cpp"] ∧ x.target = s.ident ∧ x.getMut = "cpp_peer" ∧ x.get = "cpp_peer" ∧
      (∀ o, x.selfOwned = some o ↔ AsksSelfOwned attr ∧ o = (["ffi", s.ident ++ "Cpp"], s.ident)) := by
  have hown : ∀ (a : SubclassAttrs) (v : List Ident × Ident), parseSubclassAttrs attr = .ok a → ∀ o,
      ((if a.selfOwned then some v else none) = some o ↔ AsksSelfOwned attr ∧ o = v) := by
    intro a v ha o
    cases hs : a.selfOwned with
    | true =>
      constructor
      · intro h
        exact ⟨⟨a, ha, hs⟩, (Option.some.inj h).symm⟩
      · rintro ⟨-, rfl⟩
        rfl
    | false =>
      constructor
      · intro h
        cases h
      · rintro ⟨⟨b, hb, hb'⟩, -⟩
        rw [ha] at hb
        cases hb
        rw [hs] at hb'
        cases hb'
  constructor
  · intro h
    cases i with
    | struct s =>
      rw [expandSubclass] at h
      split at h
      · cases h
      · rename_i hv
        have hv : s.vis = .pub := Decidable.not_not.1 hv
        cases hf : s.fields with
        | unnamed l => rw [hf] at h; cases h
        | named l =>
          rw [hf] at h
          change (match parseSubclassAttrs attr with | .error _ => _ | .ok attrs => _) = _ at h
          split at h
          · cases h
          · rename_i a ha
            cases h
            exact ⟨s, l, rfl, hv, by rw [hf]; rfl, ⟨a, ha⟩, rfl, rfl, rfl, rfl, rfl, hown a _ ha⟩
        | unit =>
          rw [hf] at h
          change (match parseSubclassAttrs attr with | .error _ => _ | .ok attrs => _) = _ at h
          split at h
          · cases h
          · rename_i a ha
            cases h
            exact ⟨s, [], rfl, hv, by rw [hf]; rfl, ⟨a, ha⟩, rfl, rfl, rfl, rfl, rfl, hown a _ ha⟩
    | enum => cases h
    | fn => cases h
    | other => cases h
  · rintro ⟨s, l, rfl, hv, hl, ⟨a, ha⟩, h1, h2, h3, h4, h5, h6⟩
    have hfields : addPeerField s.ident s.fields = .ok (.named (l ++ [peerField s.ident])) := by
      cases hf : s.fields with
      | unnamed l => rw [hf] at hl; cases hl
      | named l => rw [hf] at hl; cases hl; rfl
      | unit => rw [hf] at hl; cases hl; rfl
    rw [expandSubclass, if_neg (not_not_intro hv), hfields]
    show (match parseSubclassAttrs attr with | .error _ => _ | .ok attrs => _) = _
    rw [ha]
    obtain ⟨item, peer, target, gm, g, so⟩ := x
    dsimp only at h1 h2 h3 h4 h5 h6
    subst h1 h2 h3 h4 h5
    have : so = if a.selfOwned then some (["ffi", s.ident ++ "Cpp"], s.ident) else none := by
      apply Option.ext
      intro o
      rw [h6, hown a _ ha]
    rw [this]
    rfl

/-- **C73**: what is refused, and why. -/
theorem subclass_refused_iff (attr : List Tok) (i : MacroItem) (e : MacroErr) :
    expandSubclass attr i = .error e ↔ SubclassRefused attr i e := by
  cases i with
  | struct s =>
    rw [expandSubclass]
    by_cases hv : s.vis = .pub
    · rw [if_neg (not_not_intro hv)]
      have key : ∀ fields, addPeerField s.ident s.fields = .ok fields → s.fields.written ≠ none →
          ((addPeerField s.ident s.fields).bind (fun fields => match parseSubclassAttrs attr with
            | .error _ => Except.error MacroErr.badAttributes
            | .ok attrs => .ok
              { item := { s with fields := fields }, peer := peerPath s.ident, target := s.ident, getMut := "cpp_peer", get := "cpp_peer",
                selfOwned := if attrs.selfOwned then some (peerPath s.ident, s.ident) else none : SubclassExpansion }) = .error e ↔
            SubclassRefused attr (.struct s) e) := by
        intro fields hf hw
        rw [hf]
        cases hp : parseSubclassAttrs attr with
        | error err =>
          constructor
          · intro h
            cases h
            exact .attributes hv hw (fun a ha => by rw [hp] at ha; cases ha)
          · intro h
            cases h with
            | notStruct h => exact absurd rfl (h s)
            | notPublic h => exact absurd hv h
            | tuple _ h => exact absurd h hw
            | attributes => rfl
        | ok a =>
          constructor
          · intro h
            cases h
          · intro h
            cases h with
            | notStruct h => exact absurd rfl (h s)
            | notPublic h => exact absurd hv h
            | tuple _ h => exact absurd h hw
            | attributes _ _ h => exact absurd hp (h a)
      cases hf : s.fields with
      | unnamed l =>
        constructor
        · intro h
          cases h
          exact .tuple hv (by rw [hf]; rfl)
        · intro h
          cases h with
          | notStruct h => exact absurd rfl (h s)
          | notPublic h => exact absurd hv h
          | tuple _ h => rfl
          | attributes _ h => rw [hf] at h; exact absurd rfl h
      | named l =>
        have := key _ (by rw [hf]; rfl) (by rw [hf]; exact fun h => by cases h)
        rw [hf] at this
        exact this
      | unit =>
        have := key _ (by rw [hf]; rfl) (by rw [hf]; exact fun h => by cases h)
        rw [hf] at this
        exact this
    · rw [if_pos hv]
      constructor
      · intro h
        cases h
        exact .notPublic hv
      · intro h
        cases h with
        | notStruct h => exact absurd rfl (h s)
        | notPublic => rfl
        | tuple h => exact absurd h hv
        | attributes h => exact absurd h hv
  | enum => exact ⟨fun h => by cases h; exact .notStruct (fun _ e => by cases e), fun h => by cases h; rfl⟩
  | fn => exact ⟨fun h => by cases h; exact .notStruct (fun _ e => by cases e), fun h => by cases h; rfl⟩
  | other => exact ⟨fun h => by cases h; exact .notStruct (fun _ e => by cases e), fun h => by cases h; rfl⟩

/-- **C73**: the expanded struct has each field once, if the user wrote each once and none called `cpp_peer`. -/
theorem fields_once_iff {attr : List Tok} {s : MacroStruct} {x : SubclassExpansion} (h : expandSubclass attr (.struct s) = .ok x)
    {l l' : List MacroField} (hl : s.fields.written = some l) (hl' : x.item.fields.written = some l') :
    (l'.map (·.name)).Nodup ↔ (l.map (·.name)).Nodup ∧ "cpp_peer" ∉ l.map (·.name) := by
  obtain ⟨s', m, e, -, hm, -, hi, -⟩ := (subclass_expands_iff ..).1 h
  cases e
  rw [hl] at hm
  cases hm
  rw [hi] at hl'
  cases hl'
  rw [List.map_append, List.nodup_append]
  simp only [List.map_cons, List.map_nil, List.mem_singleton, List.nodup_cons, List.not_mem_nil, not_false_eq_true, List.nodup_nil,
    and_self, true_and]
  constructor
  · rintro ⟨h1, h2⟩
    exact ⟨h1, fun hc => h2 _ hc _ rfl rfl⟩
  · rintro ⟨h1, h2⟩
    refine ⟨h1, ?_⟩
    rintro a ha b rfl rfl
    exact h2 ha

/-! ### The struct and the generated code -/

section
variable {hash : Config → Nat} {policy : UnsafePolicy} {cfg : Config} {includes : List String} {headerName : Option String}
  {apis : List FnApi} {f : RsFile}

/-- **C73**: the peer's type which the attribute refers to is there in the code generated for the subclass, if the module of the
generated code has the usual name; and just then. -/
theorem peer_found_iff (hI : CodegenItems hash cfg apis) (h : generateRsCode hash policy cfg includes headerName apis = some f)
    {n : ApiName} {sup : QName} (hn : .subclass n sup ∈ apis) {attr : List Tok} {i : MacroItem} {x : SubclassExpansion}
    (hx : expandSubclass attr i = .ok x) (hid : x.target = n.name.name) : f.PeerAt x.peer ↔ cfg.getModName = "ffi" := by
  obtain ⟨codes, P⟩ := rs_parts h
  obtain ⟨s, l, rfl, -, -, -, -, hp, ht, -⟩ := (subclass_expands_iff ..).1 hx
  have hid' : s.ident = n.name.name := ht.symm.trans hid
  rw [hp, hid']
  constructor
  · rintro ⟨m, hm, -⟩
    have := (List.cons.inj hm).1
    rw [← P.modName, ← this]
  · intro hmod
    obtain ⟨c, -, hgc⟩ := P.each.left hn
    cases item_code hgc with
    | subclass n' sup' _ ha hc =>
      cases ha
      obtain ⟨supers, -, hext, -, -, -, -, -, hit⟩ := subclass_code hc
      refine ⟨n.name.name ++ "Cpp", by rw [P.modName, hmod], ?_, ?_⟩
      · refine (P.has_iff _ _).2 ⟨_, hn, hI.subs n sup hn, c, hgc, ?_⟩
        rw [hit]
        exact List.mem_append_left _ (List.mem_append_left _ (List.mem_append_left _ List.mem_cons_self))
      · have hb : bridgeType (RsEnv.ofApis hash policy cfg apis).names n.cppPeer false ∈ f.externC := by
          refine (P.mem_externC _).2 (.inl ⟨_, hn, c, hgc, ?_⟩)
          rw [hext]
          exact List.mem_cons_self
        exact ⟨_, _, _, hb⟩
    | type hi => cases hi
    | makeString _ ha => cases ha
    | fn _ _ _ _ ha => cases ha
    | bindgen ha => rcases ha with ⟨_, _, ha⟩ | ⟨_, _, _, _, ha⟩ <;> cases ha
    | ctype _ _ ha => cases ha
    | rustType _ _ _ ha => cases ha
    | rustFn _ _ _ ha => cases ha
    | subclassFn _ _ _ _ ha => cases ha
    | externCpp _ _ _ _ ha => cases ha
    | failed _ _ _ ha => cases ha
    | nothing ha => rcases ha with ⟨_, _, ha⟩ | ⟨_, _, ha⟩ <;> cases ha

/-- **C73**: the structs which generated code says `super::` of are the subclasses, and it says so only in the module which
the user's module has in it. -/
theorem structs_needed (hI : CodegenItems hash cfg apis) (h : generateRsCode hash policy cfg includes headerName apis = some f)
    {p : List String} {d : OutDecl} (hd : f.Has p d) {st : Ident} (hs : d.struct = some st) :
    p = [] ∧ ∃ n sup, .subclass n sup ∈ apis ∧ n.name = ⟨[], st⟩ := by
  obtain ⟨codes, P⟩ := rs_parts h
  obtain ⟨a, ha, hp, c, hgc, hi⟩ := (P.has_iff p d).1 hd
  cases item_code hgc with
  | subclass n sup _ e hc =>
    subst e
    obtain ⟨supers, hsup, -, -, -, -, -, -, hit⟩ := subclass_code hc
    have hns := hI.subs n sup ha
    refine ⟨hp.symm.trans hns, n, sup, ha, ?_⟩
    have : st = n.name.name := by
      rw [hit] at hi
      rcases List.mem_append.1 hi with hi | hi
      · rcases List.mem_append.1 hi with hi | hi
        · rcases List.mem_append.1 hi with hi | hi
          · simp only [List.mem_cons, List.not_mem_nil, or_false] at hi
            rcases hi with rfl | rfl | rfl
            · cases hs
            · exact (Option.some.inj hs).symm
            · cases hs
          · obtain ⟨t, fns, rfl⟩ : ∃ t fns, d = .implSupers t n.name.name fns := by
              cases hm : AMap.get? (RsEnv.ofApis hash policy cfg apis).methods sup with
              | none => rw [hm, supersImpl] at hsup; cases hsup; cases hi
              | some ms =>
                rw [hm, supersImpl] at hsup
                obtain ⟨fns, -, rfl⟩ := Option.map_eq_some_iff.1 hsup
                split at hi
                · rw [List.mem_singleton] at hi; exact ⟨_, _, hi⟩
                · cases hi
            exact (Option.some.inj hs).symm
        · split at hi
          · rw [List.mem_singleton] at hi
            subst hi
            exact (Option.some.inj hs).symm
          · cases hi
      · simp only [List.mem_cons, List.not_mem_nil, or_false] at hi
        rcases hi with rfl | rfl | rfl <;> exact (Option.some.inj hs).symm
    obtain ⟨⟨ns, nm⟩, cpp⟩ := n
    dsimp only at hns this
    subst hns this
    rfl
  | type hty ht hc =>
    exfalso
    have htr : ∀ i, i ∈ _ → _ := fun i hi => traits_only ht (i := i) hi
    have no : ∀ {l : List OutDecl} {post : List OutDecl}, (∀ i ∈ post, i.struct = none) → d ∈ l ++ post →
        (∀ i ∈ l, i.struct = none) → False := by
      intro l post h1 h2 h3
      rcases List.mem_append.1 h2 with h2 | h2
      · rw [h3 d h2] at hs; cases hs
      · rw [h1 d h2] at hs; cases hs
    have htn : ∀ i ∈ _, OutDecl.struct i = none := fun i hi => by
      obtain ⟨_, _, _, rfl⟩ := htr i hi
      rfl
    cases hc with
    | pod =>
      refine no (l := _ ++ [_]) ?_ hi ?_
      · intro i hi; rw [List.mem_singleton] at hi; subst hi; rfl
      · intro i hi
        rcases List.mem_append.1 hi with hi | hi
        · exact htn i hi
        · rw [List.mem_singleton] at hi; subst hi; rfl
    | nonPod =>
      refine no (l := _ ++ [_]) ?_ hi ?_
      · intro i hi; rw [List.mem_singleton] at hi; subst hi; rfl
      · intro i hi
        rcases List.mem_append.1 hi with hi | hi
        · exact htn i hi
        · rw [List.mem_singleton] at hi; subst hi; rfl
    | abstract =>
      refine no ?_ hi htn
      intro i hi; rw [List.mem_singleton] at hi; subst hi; rfl
    | podGeneric =>
      refine no ?_ hi htn
      intro i hi; rw [List.mem_singleton] at hi; subst hi; rfl
    | nonPodGeneric =>
      refine no ?_ hi htn
      intro i hi; rw [List.mem_singleton] at hi; subst hi; rfl
    | abstractGeneric => cases hi
  | makeString => rw [List.mem_singleton] at hi; subst hi; cases hs
  | fn n fn an r e hr =>
    obtain ⟨y, hy, rfl⟩ := List.mem_map.1 hi
    cases y <;> cases hs
  | bindgen => rw [List.mem_singleton] at hi; subst hi; cases hs
  | ctype => cases hi
  | rustType => cases hi
  | rustFn => cases hi
  | subclassFn n sub d' _ e hc =>
    obtain ⟨_, _, _, _, rfl⟩ := subclassFn_code hc
    cases hi
  | externCpp => rw [List.mem_singleton] at hi; subst hi; cases hs
  | failed n err ctx =>
    cases ctx with
    | item => rw [errorEntry, List.mem_singleton] at hi; subst hi; cases hs
    | sanitizedItem => rw [errorEntry, List.mem_singleton] at hi; subst hi; cases hs
    | method => cases hi
  | nothing => cases hi

end

/-- **C73 (whole runs)**: in what a run generates, `super::X` is said only at the top, and only of an `X` which the configuration
names as a subclass of a class; and for each struct of such a name which the attribute accepts, the struct is public and the type which the
attribute takes for its peer is there, if and only if the bindings' module is called `ffi`. -/
theorem subclass_fits_partial {fuel : Nat} {hash : Config → Nat} {sigOf : RustSig → RustFnSig} {policy : UnsafePolicy} {cfg : Config}
    {force : Bool} {cb : Callbacks} {items : List BindgenItem} {o : CppOptions} {cxxgenHeader inclusions : String}
    {includes : List String} {f : RsFile} {r : Option CppFilePair}
    (h : convertAll fuel hash sigOf policy cfg force cb (some items) o cxxgenHeader inclusions includes = .done (.ok (f, r)))
    (hc : ∀ out, Nonempty (ConvertStages fuel hash sigOf policy cfg force cb items out) →
      ∀ n t d, .concreteType n t d ∈ out.apis → n.name.name ≠ "super")
    {p : List String} {d : OutDecl} (hd : f.Has p d) {st : Ident} (hs : d.struct = some st) :
    p = [] ∧ (∃ sc ∈ cfg.subclasses, sc.subclass = st) ∧
      ∀ attr i x, expandSubclass attr i = .ok x → x.target = st →
        x.item.vis = .pub ∧ x.item.ident = st ∧ (f.PeerAt x.peer ↔ cfg.getModName = "ffi") := by
  obtain ⟨out, ⟨q⟩, -, hg⟩ := (convertAll_ok_iff ..).1 h
  have hI := q.codegen_items (hc out ⟨q⟩)
  obtain ⟨hp, n, sup, hn, hns⟩ := structs_needed hI hg hd hs
  refine ⟨hp, ?_, fun attr i x hx ht => ?_⟩
  · rcases q.delivered_directive hn rfl with (⟨-, h⟩ | ⟨sc, hsc, h⟩ | ⟨f, hf, _, -, h⟩ | ⟨q, last, hq, h⟩ | ⟨_, -, h⟩) |
      ⟨pre, nm, req, post, hx, hq, hp, h⟩
    · cases h
    · refine ⟨sc, hsc, ?_⟩
      have := (Api.subclass.inj h).1
      rw [this] at hns
      exact (QName.mk.inj hns).2
    · cases h
    · cases h
    · cases h
    · cases h
  · obtain ⟨s, l, rfl, hv, -, -, hi, -, ht', -⟩ := (subclass_expands_iff ..).1 hx
    refine ⟨by rw [hi]; exact hv, by rw [hi]; exact ht'.symm.trans ht, peer_found_iff hI hg hn hx ?_⟩
    rw [ht, hns]

/-- **C73**: the attribute and the build script read the attribute's arguments the same way: if the attribute accepts them, the build
script does, and the superclass which it takes down is the one which is written, for the struct's name. -/
theorem attribute_read_alike {attr : List Tok} {s : MacroStruct} {x : SubclassExpansion}
    (h : expandSubclass attr (.struct s) = .ok x) {attrs : List Attr} {a : Attr} (ha : attrs.find? Attr.isSubclass = some a)
    (hargs : a.args = .list attr) :
    ∃ w, AttrsWritten w attr ∧ ((superNames w = [] ∧ ∀ auto, structSuperclass auto s.ident attrs = .ok []) ∨
      ∃ sup, superNames w = [sup] ∧ structSuperclass true s.ident attrs = .ok [⟨sup, s.ident⟩] ∧
        structSuperclass false s.ident attrs = .error .superclassWithoutAutoAllowlist) := by
  obtain ⟨s', l, e, -, -, ⟨b, hb⟩, -⟩ := (subclass_expands_iff ..).1 h
  obtain ⟨w, hw, hlen, rfl⟩ := (subclass_attrs_ok_iff ..).1 hb
  refine ⟨w, hw, ?_⟩
  have key : ∀ auto, structSuperclass auto s.ident attrs =
      match (superNames w).head? with
      | none => .ok []
      | some sup => if auto then .ok [⟨sup, s.ident⟩] else .error .superclassWithoutAutoAllowlist := by
    intro auto
    rw [structSuperclass, ha]
    dsimp only
    rw [hargs]
    dsimp only
    rw [hb]
    dsimp only
    cases (superNames w).head? <;> rfl
  cases hsn : superNames w with
  | nil =>
    refine .inl ⟨rfl, fun auto => ?_⟩
    rw [key, hsn]
    rfl
  | cons sup rest =>
    cases rest with
    | nil =>
      refine .inr ⟨sup, rfl, ?_, ?_⟩
      · rw [key, hsn]; rfl
      · rw [key, hsn]; rfl
    | cons => rw [hsn] at hlen; exact absurd hlen (by simp)

/-- **C73**: what `#[extern_rust_type]` and `#[extern_rust_function]` accept, and that they change nothing. -/
theorem extern_attributes_iff (attr : List Tok) (i j : MacroItem) :
    (expandExternRustType attr i = .ok j ↔ attr = [] ∧ j = i ∧ i ≠ .other) ∧
    (expandExternRustFunction attr i = .ok j ↔ attr = [] ∧ j = i ∧ i = .fn) := by
  constructor
  · unfold expandExternRustType
    by_cases h : attr = []
    · rw [if_neg (not_not_intro h)]
      constructor
      · intro e
        cases i <;> cases e <;> exact ⟨h, rfl, (fun e => by cases e)⟩
      · rintro ⟨-, rfl, e⟩
        cases j <;> first | rfl | exact absurd rfl e
    · rw [if_pos h]
      exact ⟨(fun e => by cases e), (fun e => absurd e.1 h)⟩
  · unfold expandExternRustFunction
    by_cases h : attr = []
    · rw [if_neg (not_not_intro h)]
      constructor
      · intro e
        cases i <;> cases e
        exact ⟨h, rfl, rfl⟩
      · rintro ⟨-, rfl, rfl⟩
        rfl
    · rw [if_pos h]
      exact ⟨(fun e => by cases e), (fun e => absurd e.1 h)⟩

/-! ### Cases -/

/-- `#[subclass(self_owned, superclass("A"))] pub struct Y { x: u32 }`. -/
def exMacroStruct : MacroStruct :=
  ⟨[], .pub, "Y", [], .named [⟨.inherited, "x", .user (.path none (.mk [.mk "u32" .none]))⟩]⟩

example : ∃ x, expandSubclass [.ident "self_owned", .comma, .ident "superclass", .paren [.lit "A"]] (.struct exMacroStruct) = .ok x ∧
    x.peer = ["ffi", "YCpp"] ∧ x.selfOwned = some (["ffi", "YCpp"], "Y") ∧
    x.item.fields.written.map (·.map (·.name)) = some ["x", "cpp_peer"] := by
  have hp : parseSubclassAttrs [.ident "self_owned", .comma, .ident "superclass", .paren [.lit "A"]] = .ok ⟨true, some "A"⟩ :=
    (subclass_attrs_ok_iff _ _).2 ⟨_, .moreOwned (.lastSuper "A"), by decide, rfl⟩
  refine ⟨_, by rw [expandSubclass, if_neg (by decide), exMacroStruct, addPeerField, Except.bind]; dsimp only; rw [hp], rfl, rfl, rfl⟩

example : SubclassRefused [] (.struct { exMacroStruct with fields := .unnamed [] }) .tupleStruct := .tuple rfl rfl

/-- The items of a run with one subclass and nothing else. -/
def exOneSub : List FnApi := [.subclass ⟨⟨[], "Y"⟩, none⟩ ⟨[], "A"⟩]

theorem exOneSub_ok (hash : Config → Nat) (cfg : Config) : CodegenItems hash cfg exOneSub where
  names := by decide
  makeString n h := by rw [exOneSub, List.mem_singleton] at h; cases h
  fns n f a h := by rw [exOneSub, List.mem_singleton] at h; cases h
  subs n sup h := by rw [exOneSub, List.mem_singleton] at h; cases h; rfl
  notSuper a h hk := by
    rw [exOneSub, List.mem_singleton] at h
    subst h
    exact (by decide : "Y" ≠ "super")

/-- With the usual name of the module the peer is found, with another it is not. -/
theorem exSub_peer (cfg : Config) : ∃ f x, generateRsCode (fun _ => 0) .allFunctionsSafe cfg [] (some "gen.h") exOneSub = some f ∧
    expandSubclass [] (.struct exMacroStruct) = .ok x ∧ (f.PeerAt x.peer ↔ cfg.getModName = "ffi") := by
  obtain ⟨f, hf⟩ : ∃ f, generateRsCode (fun _ => 0) .allFunctionsSafe cfg [] (some "gen.h") exOneSub = some f := by
    cases h : generateRsCode (fun _ => 0) .allFunctionsSafe cfg [] (some "gen.h") exOneSub with
    | some f => exact ⟨f, rfl⟩
    | none =>
      rcases rs_code_panics_iff.1 h with ⟨a, ha, hn⟩ | ⟨-, hn⟩
      · rw [exOneSub, List.mem_singleton] at ha
        subst ha
        rw [genApi, genSubclass, Option.map_eq_none_iff] at hn
        have hm : AMap.get? (RsEnv.ofApis (fun _ => 0) .allFunctionsSafe cfg exOneSub).methods ⟨[], "A"⟩ = _ :=
          superclass_methods (cfg := cfg) (apis := exOneSub) ⟨[], "A"⟩
        rw [hm] at hn
        split at hn
        · cases hn
        · cases hn
      · cases hn
  exact ⟨f, _, hf, rfl, peer_found_iff (exOneSub_ok _ _) hf (n := ⟨⟨[], "Y"⟩, none⟩) List.mem_cons_self
    (attr := []) (i := .struct exMacroStruct) rfl rfl⟩

/-! ### Where the code disagrees -/

/-- **C73 fails:** if the bindings' module has been given another name by `name!`, then the type which the attribute refers to is not
there, whatever the struct. -/
theorem renamed_module_false {hash : Config → Nat} {policy : UnsafePolicy} {cfg : Config} {includes : List String}
    {headerName : Option String} {apis : List FnApi} {f : RsFile} (hI : CodegenItems hash cfg apis)
    (h : generateRsCode hash policy cfg includes headerName apis = some f)
    {n : ApiName} {sup : QName} (hn : .subclass n sup ∈ apis) {attr : List Tok} {i : MacroItem} {x : SubclassExpansion}
    (hx : expandSubclass attr i = .ok x) (hid : x.target = n.name.name) {m : Ident} (hm : cfg.modName = some m) (hne : m ≠ "ffi") :
    ¬ f.PeerAt x.peer := by
  rw [peer_found_iff hI h hn hx hid, Config.getModName, hm]
  exact hne

/-- **C73 fails:** a struct may have a field `cpp_peer` already; the attribute adds another. -/
theorem second_peer_field_false : ∃ s x l, expandSubclass [] (.struct s) = .ok x ∧ x.item.fields.written = some l ∧
    ¬ (l.map (·.name)).Nodup := by
  exact ⟨⟨[], .pub, "Y", [], .named [⟨.inherited, "cpp_peer", .peerHolder []⟩]⟩, _, _, rfl, rfl, by decide⟩

/-- **C73 fails:** a generic struct is accepted, but the trait is implemented for its bare name. -/
theorem generic_subclass_false : ∃ s x, expandSubclass [] (.struct s) = .ok x ∧ x.item.generics = ["T"] ∧ x.target = x.item.ident := by
  exact ⟨⟨[], .pub, "Y", ["T"], .unit⟩, _, rfl, rfl, rfl⟩

/-- **C73 fails:** `#[extern_rust_type]` may be put on a function, but then nothing is offered to C++. -/
theorem extern_type_on_function_false : expandExternRustType [] .fn = .ok .fn ∧
    ∀ sigOf d name, Syn.searchItem sigOf none d (.fn [{ path := ["extern_rust_type"] }] (.mk name [] [] none) []) = .ok d := by
  refine ⟨rfl, fun sigOf d name => ?_⟩
  simp [Syn.searchItem, Syn.searchStmts, Syn.searchSig, Syn.searchOptType, Syn.searchInputs, Except.bind, Syn.hasAttr]

/-- **C73 fails:** a subclass within a module is taken down as if it were beside the bindings, which say `super::Y` of it. -/
theorem nested_subclass_false : ∃ st : FileState Unit Unit,
    parseItems (fun _ _ d => .ok d) true none FileState.empty [.module [] "inner"
      [.struct [{ path := ["subclass"], args := .list [.ident "superclass", .paren [.lit "A"]] }] "Y" ()] ()] = .ok st ∧
    st.extraSuperclasses = [⟨"A", "Y"⟩] := by
  have hp : parseSubclassAttrs [.ident "superclass", .paren [.lit "A"]] = .ok ⟨false, some "A"⟩ :=
    (subclass_attrs_ok_iff _ _).2 ⟨_, .lastSuper "A", by decide, rfl⟩
  have hs : structSuperclass true "Y" [{ path := ["subclass"], args := .list [.ident "superclass", .paren [.lit "A"]] }] =
      .ok [⟨"A", "Y"⟩] := by
    rw [structSuperclass, List.find?_cons_of_pos (by decide)]
    dsimp only
    rw [hp]
    rfl
  refine ⟨⟨[.module [.other]], [⟨"A", "Y"⟩], FileState.empty (ρ := Unit) (α := Unit).discoveries.extend
    (FileState.empty (ρ := Unit) (α := Unit)).discoveries⟩, ?_, rfl⟩
  simp only [parseItems, parseItem, hs, FileState.searchOther]
  rfl

end Verif
