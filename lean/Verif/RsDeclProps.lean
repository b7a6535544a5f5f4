import Verif.RsGenProps

/-!
# What the generated Rust code refers to is declared

Statements about the whole of the generated code: see `RsGenProps` for where its parts come from.
-/

set_option autoImplicit false

namespace Verif

section
variable {hash : Config → Nat} {policy : UnsafePolicy} {cfg : Config} {includes : List String}
  {headerName : Option String} {apis : List FnApi} {f : RsFile}

omit hash policy cfg includes headerName apis f in
theorem prefixed_not_super (r : String) : "autocxx_make_string" ++ r ≠ "super" := by
  intro h
  have h1 : 's' :: "uper".toList = 'a' :: ("utocxx_make_string".toList ++ r.toList) := by
    have := congrArg String.toList h.symm
    rw [String.toList_append] at this
    exact this
  exact absurd (List.cons.inj h1).1 (by decide)

omit hash policy cfg includes headerName apis f in
theorem append_four (a b c d : String) : a ++ b ++ c ++ d = a ++ (b ++ (c ++ d)) := by
  rw [String.append_assoc, String.append_assoc]

omit hash policy cfg includes headerName apis f in
theorem makestring_not_super (hash : Config → Nat) (c : Config) : c.makestringName hash ≠ "super" := by
  unfold Config.makestringName
  rw [append_four]
  exact prefixed_not_super _

/-- **C68**: every `use` in an output module of something in the bridge leads to the bridge, and to something which is
declared there. -/
theorem bridge_uses_declared (hI : CodegenItems hash cfg apis)
    (h : generateRsCode hash policy cfg includes headerName apis = some f) {p path : List String} {al : Option Ident}
    (hu : f.Has p (.useBridge path al)) :
    ∃ x, goTo p path = some ["cxxbridge", x] ∧ ∃ d ∈ f.externC, d.declares = some x := by
  obtain ⟨codes, P⟩ := rs_parts h
  obtain ⟨a, ha, rfl, c, hc, hi⟩ := (P.has_iff p _).1 hu
  have put : ∀ x, (∃ d ∈ c.externC, d.declares = some x) → ∃ d ∈ f.externC, d.declares = some x :=
    fun x ⟨d, hd, e⟩ => ⟨d, (P.mem_externC d).2 (.inl ⟨a, ha, c, hc, hd⟩), e⟩
  have home : a.name.name ≠ "super" → goTo a.name.ns (cxxUsePath a.name) = some ["cxxbridge", a.name.name] := fun hn =>
    (use_paths_lead_home a.name hn).1
  have hcode := item_code hc
  cases hcode with
  | @type _ _ _ _ traits _ ht hs hk =>
    have hnt : .useBridge path al ∉ traits := fun hx => by
      obtain ⟨_, _, _, e⟩ := traits_only hs hx
      cases e
    have hn : a.name.name ≠ "super" := hI.notSuper a ha (.inl ⟨_, _, _, _, ht⟩)
    cases hk with
    | abstract =>
      rw [List.mem_append] at hi
      rcases hi with hi | hi
      · exact absurd hi hnt
      · rw [List.mem_singleton] at hi
        obtain ⟨rfl, -⟩ := OutDecl.useBridge.inj hi
        exact ⟨_, home hn, put _ ⟨_, List.mem_singleton.2 rfl, rfl⟩⟩
    | pod | podGeneric | nonPod | nonPodGeneric =>
      exfalso
      simp only [List.mem_append, List.mem_singleton, reduceCtorEq, or_false, false_or] at hi
      exact hnt hi
    | abstractGeneric => cases hi
  | makeString n e =>
    subst e
    rw [List.mem_singleton] at hi
    obtain ⟨rfl, -⟩ := OutDecl.useBridge.inj hi
    refine ⟨_, home ?_, put _ ⟨_, List.mem_singleton.2 rfl, ?_⟩⟩
    · intro hx
      exact makestring_not_super hash cfg ((congrArg QName.name (hI.makeString n ha)).symm.trans hx)
    rw [BridgeDecl.declares]
    exact congrArg some (congrArg QName.name (hI.makeString n ha)).symm
  | fn n g an r e hr =>
    subst e
    rcases fn_code hr with ⟨-, rfl⟩ | ⟨-, b, -, hb, hn, hp⟩
    · cases hi
    · obtain ⟨i, hir, e⟩ := List.mem_map.1 hi
      cases i with
      | fn g => cases e
      | useBridge path' al' =>
        obtain ⟨rfl, rfl⟩ := OutDecl.useBridge.inj e
        rw [fn_use hp hir]
        refine ⟨_, home (hI.notSuper _ ha (.inr ⟨_, _, _, rfl⟩)), put _ ⟨.fn b, ?_, ?_⟩⟩
        · show BridgeDecl.fn b ∈ r.externC.map .fn
          rw [hb]
          exact List.mem_singleton.2 rfl
        · show some b.name = some n.name.name
          rw [hn, hI.fns n g an ha]
  | bindgen e => rw [List.mem_singleton] at hi; cases hi
  | ctype n q e => cases hi
  | rustType n s q e => cases hi
  | rustFn n ds q e => cases hi
  | subclassFn n sub d c e hg =>
    obtain ⟨_, _, -, -, rfl⟩ := subclassFn_code hg
    cases hi
  | subclass n sup c e hg =>
    subst e
    obtain ⟨supers, hs, hC, -, -, -, -, -, hit⟩ := subclass_code hg
    have hns := hI.subs n sup ha
    have hx : OutDecl.useBridge path al = .useBridge ["cxxbridge", n.cppPeer.name] none := by
      rw [hit] at hi
      simp only [List.cons_append, List.nil_append, List.mem_cons, List.mem_append, reduceCtorEq, false_or, or_false,
        List.not_mem_nil] at hi
      rcases hi with hi | (hi | hi)
      · exact hi
      · obtain ⟨_, _, _, e⟩ := supers_only hs hi
        cases e
      · split at hi
        · rw [List.mem_singleton] at hi; cases hi
        · cases hi
    obtain ⟨rfl, -⟩ := OutDecl.useBridge.inj hx
    refine ⟨n.cppPeer.name, ?_, put _ ⟨_, by rw [hC]; exact List.mem_cons_self, rfl⟩⟩
    show goTo n.name.ns _ = _
    rw [hns]
    refine goTo_names [] _ ?_
    intro hc
    simp only [List.mem_cons, List.not_mem_nil, or_false, reduceCtorEq, false_or] at hc
    have := congrArg (fun s : String => s.toList.getLast?) (hc.resolve_left (by decide))
    simp [ApiName.cppPeer, String.toList_append] at this
  | externCpp n q o x e hx hn => rw [List.mem_singleton] at hi; cases hi
  | failed n err ctx e =>
    cases ctx with
    | item _ => exact absurd (List.mem_singleton.1 hi) (by simp)
    | sanitizedItem _ => exact absurd (List.mem_singleton.1 hi) (by simp)
    | method _ _ => cases hi
  | nothing e => cases hi

/-! ## Types of the bridge -/

omit hash policy cfg includes headerName apis f in
theorem joinCC_append (l : List String) {m : List String} (h : m ≠ []) : joinCC (l ++ m) = joinCC (l ++ [joinCC m]) := by
  induction l with
  | nil => rfl
  | cons a l ih =>
    cases l with
    | nil =>
      cases m with
      | nil => exact absurd rfl h
      | cons b m => rfl
    | cons b l =>
      show a ++ "::" ++ joinCC (b :: l ++ m) = a ++ "::" ++ joinCC (b :: l ++ [joinCC m])
      rw [ih]

omit hash policy cfg includes headerName apis f in
theorem joinCC_push {l : List String} (h : l ≠ []) (x : String) : joinCC (l ++ [x]) = joinCC l ++ "::" ++ x := by
  induction l with
  | nil => exact absurd rfl h
  | cons a l ih =>
    cases l with
    | nil => rfl
    | cons b l =>
      show a ++ "::" ++ joinCC (b :: l ++ [x]) = a ++ "::" ++ joinCC (b :: l) ++ "::" ++ x
      rw [ih (by simp)]
      simp only [String.append_assoc]

/-- The C++ name cxx takes a type of the bridge to have. -/
def cxxTypeId (ns cxxName : Option String) (name : Ident) : String :=
  match ns with
  | none => cxxName.getD name
  | some s => s ++ "::" ++ cxxName.getD name

/-- A C++ name without empty segments. -/
def CppNameOk (c : String) : Prop := joinCC (QName.ofCppName c).segs = c

omit hash policy cfg includes headerName apis f in
/-- The two ways in which the C++ name of a type is told to cxx agree. -/
theorem type_ids_agree (m : CppNameMap) (q : QName) (hk : specialCppName q = none)
    (hc : ∀ c, AMap.get? m q = some c → CppNameOk c) (b : Bool) :
    ∃ ns cxx al, bridgeType m q b = .type ns cxx q.name al ∧ m.map q = cxxTypeId ns cxx q.name := by
  refine ⟨_, _, _, rfl, ?_⟩
  rw [CppNameMap.map]
  cases hg : AMap.get? m q with
  | none =>
    simp only [Option.map_none]
    rw [QName.toCppName, hk]
    show joinCC (q.ns ++ [q.name]) = _
    by_cases hn : q.ns = []
    · rw [hn]; rfl
    · rw [if_neg hn, joinCC_push hn]; rfl
  | some c =>
    simp only [Option.map_some]
    have h1 : joinCC (q.ns ++ [c]) = joinCC (q.ns ++ (QName.ofCppName c).ns ++ [(QName.ofCppName c).name]) := by
      rw [List.append_assoc, joinCC_append q.ns (m := (QName.ofCppName c).ns ++ [(QName.ofCppName c).name]) (by simp)]
      rw [show joinCC ((QName.ofCppName c).ns ++ [(QName.ofCppName c).name]) = c from hc c hg]
    rw [h1]
    by_cases hn : q.ns ++ (QName.ofCppName c).ns = []
    · rw [hn]; rfl
    · rw [if_neg hn, joinCC_push hn]; rfl

omit hash policy cfg includes headerName apis f in
theorem typeItem_unique {a : FnApi} {k k' : TypeKind} {m m' d d' : Bool} {g g' : Nat} (h : TypeItem a k m d g)
    (h' : TypeItem a k' m' d' g') : k = k' ∧ m = m' ∧ d = d' ∧ g = g' := by
  cases h <;> cases h' <;> exact ⟨rfl, rfl, rfl, rfl⟩

/-- The types of the bridge: the name, and whether it stands for a type outside of the bridge. -/
inductive HasBridgeType : FnApi → QName → Bool → Prop
  | type {a : FnApi} {kind : TypeKind} {mv ds : Bool} (h : TypeItem a kind mv ds 0) :
      HasBridgeType a a.name (decide (kind ≠ .abstract))
  | externCpp (n : ApiName) (pod o : Bool) : HasBridgeType (.externCppType n pod o) n.name true
  | subclass (n : ApiName) (sup : QName) : HasBridgeType (.subclass n sup) n.cppPeer false

omit hash policy cfg includes headerName apis f in
theorem item_types {e : RsEnv} {a : FnApi} {c : ApiCode} (h : ItemCode e a c) (ns cxx : Option String) (x : Ident)
    (al : Option (List String)) :
    .type ns cxx x al ∈ c.externC ↔ ∃ q b, HasBridgeType a q b ∧ .type ns cxx x al = bridgeType e.names q b := by
  cases h with
  | type ht hs hk =>
    have fwd : ∀ q b, HasBridgeType a q b → q = a.name ∧ ∃ kind mv ds, TypeItem a kind mv ds 0 ∧ b = decide (kind ≠ .abstract) := by
      intro q b hb
      cases hb with
      | type h => exact ⟨rfl, _, _, _, h, rfl⟩
      | externCpp => cases ht
      | subclass => cases ht
    cases hk with
    | pod =>
      rw [List.mem_singleton]
      constructor
      · intro hx; exact ⟨_, _, .type ht, hx⟩
      · rintro ⟨q, b, hb, e⟩
        obtain ⟨rfl, k, m, d, hk, rfl⟩ := fwd q b hb
        obtain ⟨rfl, -⟩ := typeItem_unique ht hk
        exact e
    | nonPod hkind =>
      rw [List.mem_singleton]
      constructor
      · intro hx
        refine ⟨_, _, .type ht, ?_⟩
        rcases hkind with rfl | rfl <;> exact hx
      · rintro ⟨q, b, hb, e⟩
        obtain ⟨rfl, k, m, d, hk, rfl⟩ := fwd q b hb
        obtain ⟨rfl, -⟩ := typeItem_unique ht hk
        rcases hkind with rfl | rfl <;> exact e
    | abstract =>
      rw [List.mem_singleton]
      constructor
      · intro hx; exact ⟨_, _, .type ht, hx⟩
      · rintro ⟨q, b, hb, e⟩
        obtain ⟨rfl, k, m, d, hk, rfl⟩ := fwd q b hb
        obtain ⟨rfl, -⟩ := typeItem_unique ht hk
        exact e
    | podGeneric hg | nonPodGeneric _ hg | abstractGeneric hg =>
      refine ⟨fun hx => (by cases hx), ?_⟩
      rintro ⟨q, b, hb, e⟩
      obtain ⟨rfl, k, m, d, hk, rfl⟩ := fwd q b hb
      exact absurd (typeItem_unique ht hk).2.2.2 (Nat.ne_of_gt hg)
  | makeString n e =>
    subst e
    refine ⟨fun hx => ?_, ?_⟩
    · rw [List.mem_singleton] at hx; cases hx
    · rintro ⟨q, b, hb, -⟩; cases hb; rename_i hb; cases hb
  | fn n g an r e hr =>
    subst e
    refine ⟨fun hx => ?_, ?_⟩
    · obtain ⟨_, -, hx⟩ := List.mem_map.1 hx; cases hx
    · rintro ⟨q, b, hb, -⟩; cases hb; rename_i hb; cases hb
  | bindgen e =>
    refine ⟨fun hx => (by cases hx), ?_⟩
    rintro ⟨q, b, hb, -⟩
    rcases e with ⟨_, _, rfl⟩ | ⟨_, _, _, _, rfl⟩ <;> cases hb <;> rename_i hb <;> cases hb
  | ctype n q e =>
    subst e
    refine ⟨fun hx => ?_, ?_⟩
    · rw [List.mem_singleton] at hx; cases hx
    · rintro ⟨q, b, hb, -⟩; cases hb; rename_i hb; cases hb
  | rustType n s q e | rustFn n s q e =>
    subst e
    refine ⟨fun hx => (by cases hx), ?_⟩
    rintro ⟨q, b, hb, -⟩; cases hb; rename_i hb; cases hb
  | subclassFn n sub d c e hg =>
    subst e
    obtain ⟨_, _, -, -, rfl⟩ := subclassFn_code hg
    refine ⟨fun hx => (by cases hx), ?_⟩
    rintro ⟨q, b, hb, -⟩; cases hb; rename_i hb; cases hb
  | subclass n sup c e hg =>
    subst e
    obtain ⟨supers, hs, hC, -⟩ := subclass_code hg
    rw [hC]
    simp only [List.mem_cons, reduceCtorEq, or_false, List.not_mem_nil]
    constructor
    · intro hx; exact ⟨_, _, .subclass n sup, hx⟩
    · rintro ⟨q, b, hb, e⟩
      cases hb with
      | type h => cases h
      | subclass => exact e
  | externCpp n q o x e hx hn =>
    subst e
    rw [List.mem_singleton]
    constructor
    · intro hx; exact ⟨_, _, .externCpp n q o, hx⟩
    · rintro ⟨q, b, hb, e⟩
      cases hb with
      | type h => cases h
      | externCpp => exact e
  | failed n err ctx e =>
    subst e
    refine ⟨fun hx => ?_, ?_⟩
    · cases ctx <;> cases hx
    · rintro ⟨q, b, hb, -⟩; cases hb; rename_i hb; cases hb
  | nothing e =>
    refine ⟨fun hx => (by cases hx), ?_⟩
    rintro ⟨q, b, hb, -⟩
    rcases e with ⟨_, _, rfl⟩ | ⟨_, _, rfl⟩ <;> cases hb <;> rename_i hb <;> cases hb

/-- **C68**: the types of the bridge are those of the items which are types, unless they are generic, and the C++ peers of
the subclasses. -/
theorem bridge_types_exact (h : generateRsCode hash policy cfg includes headerName apis = some f) (ns cxx : Option String)
    (x : Ident) (al : Option (List String)) : .type ns cxx x al ∈ f.externC ↔
      ∃ a ∈ apis, ∃ q b, HasBridgeType a q b ∧ .type ns cxx x al = bridgeType (CppNameMap.ofApis apis) q b := by
  obtain ⟨codes, P⟩ := rs_parts h
  rw [P.mem_externC]
  constructor
  · rintro (⟨a, ha, c, hc, hx⟩ | ⟨_, hx, -⟩)
    · exact ⟨a, ha, (item_types (item_code hc) _ _ _ _).1 hx⟩
    · cases hx
  · rintro ⟨a, ha, hx⟩
    obtain ⟨c, -, hc⟩ := P.each.left ha
    exact .inl ⟨a, ha, c, hc, (item_types (item_code hc) _ _ _ _).2 hx⟩

omit hash policy cfg includes headerName f in
/-- A name in the map of C++ names is that of an item. -/
theorem names_from {q : QName} {c : String} (h : AMap.get? (CppNameMap.ofApis apis) q = some c) :
    ∃ a ∈ apis, a.name = q ∧ a.nameInfo.cppName = some c := by
  have key : ∀ (l : List FnApi) (m : CppNameMap),
      AMap.get? (l.foldl (init := m) fun m a =>
        match a.nameInfo.cppName with
        | some c => AMap.insert m a.name c
        | none => m) q = some c →
      AMap.get? m q = some c ∨ ∃ a ∈ l, a.name = q ∧ a.nameInfo.cppName = some c := by
    intro l
    induction l with
    | nil => intro m h; exact .inl h
    | cons a l ih =>
      intro m h
      rw [List.foldl_cons] at h
      rcases ih _ h with h | ⟨b, hb, h⟩
      · cases hc : a.nameInfo.cppName with
        | none => rw [hc] at h; exact .inl h
        | some d =>
          rw [hc] at h
          dsimp only at h
          rw [AMap.get?_insert] at h
          split at h
          · rename_i e
            exact .inr ⟨a, List.mem_cons_self, by simpa using e, by rw [hc, Option.some.inj h]⟩
          · exact .inl h
      · exact .inr ⟨b, List.mem_cons_of_mem _ hb, h⟩
  rcases key apis [] h with h | h
  · cases h
  · exact h

/-- **C68**: a type of the bridge which stands for one outside of it stands for a type which exists, of the same name, and
which cxx is told to have the C++ name which the bridge says it has. (Except for types with a C++ name which has an empty
segment.) -/
theorem bridge_types_defined (h : generateRsCode hash policy cfg includes headerName apis = some f)
    (hc : ∀ a ∈ apis, ∀ c, a.nameInfo.cppName = some c → CppNameOk c) {ns cxx : Option String} {x : Ident}
    {path : List String} (hd : .type ns cxx x (some path) ∈ f.externC) :
    ∃ p, path = p ++ [x] ∧ (∃ i, f.Has p i ∧ i.definesType = some x) ∧
      ((∃ r, f.Has p (.useAs r x)) ∨
        ∃ id t, f.Has p (.externType x id t) ∧ (isKnownType ⟨p, x⟩ = false → id = cxxTypeId ns cxx x)) := by
  obtain ⟨a, ha, q, b, hb, e⟩ := (bridge_types_exact h _ _ _ _).1 hd
  obtain ⟨codes, P⟩ := rs_parts h
  obtain ⟨c, -, hgc⟩ := P.each.left ha
  have put : ∀ i, i ∈ c.piece.items → f.Has a.name.ns i := fun i hi => (P.has_iff _ i).2 ⟨a, ha, rfl, c, hgc, hi⟩
  have hcode := item_code hgc
  have bt : ∀ q, b = true → .type ns cxx x (some path) = bridgeType (CppNameMap.ofApis apis) q b →
      x = q.name ∧ path = q.ns ++ [q.name] ∧
        (isKnownType ⟨q.ns, q.name⟩ = false → CppNameMap.map (CppNameMap.ofApis apis) q = cxxTypeId ns cxx x) := by
    intro q hb' hbt
    subst hb'
    refine ⟨(BridgeDecl.type.inj hbt).2.2.1, (Option.some.inj (BridgeDecl.type.inj hbt).2.2.2), fun hk => ?_⟩
    have hs : specialCppName q = none := by
      unfold isKnownType at hk
      unfold specialCppName
      cases hg : knownGet q with
      | none => rfl
      | some d => rw [hg] at hk; cases hk
    obtain ⟨ns', cxx', al, h1, h2⟩ := type_ids_agree (CppNameMap.ofApis apis) q hs (fun c hq => by
      obtain ⟨a, ha, -, hc'⟩ := names_from hq
      exact hc a ha c hc') true
    rw [h1] at hbt
    obtain ⟨rfl, rfl, rfl, -⟩ := BridgeDecl.type.inj hbt
    exact h2
  cases hb with
  | @type _ kind mv ds ht =>
    have hka : kind ≠ .abstract := by
      rintro rfl
      have := (BridgeDecl.type.inj e).2.2.2
      simp at this
    obtain ⟨rfl, rfl, hid⟩ := bt _ (by simpa using hka) e
    refine ⟨a.name.ns, rfl, ?_⟩
    cases hcode with
    | @type k' m' d' g' tr _ ht' hs hk =>
      obtain ⟨rfl, -, -, rfl⟩ := typeItem_unique ht ht'
      cases hk with
      | pod =>
        refine ⟨⟨.useBindgen (bindgenUsePath a.name), put _ (by simp), ?_⟩, .inr ⟨_, _, put _ (List.mem_append_right _ List.mem_cons_self), hid⟩⟩
        show (outputModRoot a.name.ns ++ a.name.bindgenPath).getLast? = some a.name.name
        rw [show outputModRoot a.name.ns ++ a.name.bindgenPath =
          (outputModRoot a.name.ns ++ "bindgen" :: "root" :: a.name.ns) ++ [a.name.name] by simp [QName.bindgenPath, QName.segs]]
        exact List.getLast?_concat
      | nonPod =>
        exact ⟨⟨.opaqueStruct a.name.name 0 (bindgenUsePath a.name), put _ (by simp), rfl⟩,
          .inr ⟨_, _, put _ (List.mem_append_right _ List.mem_cons_self), hid⟩⟩
      | abstract => exact absurd rfl hka
      | podGeneric h | nonPodGeneric _ h => exact absurd h (Nat.lt_irrefl _)
      | abstractGeneric => exact absurd rfl hka
    | makeString _ e | fn _ _ _ _ e | ctype _ _ e | rustType _ _ _ e | rustFn _ _ _ e | subclassFn _ _ _ _ e
    | subclass _ _ _ e | externCpp _ _ _ _ e | failed _ _ _ e => subst e; cases ht
    | bindgen e => rcases e with ⟨_, _, rfl⟩ | ⟨_, _, _, _, rfl⟩ <;> cases ht
    | nothing e => rcases e with ⟨_, _, rfl⟩ | ⟨_, _, rfl⟩ <;> cases ht
  | externCpp n pod o =>
    obtain ⟨rfl, rfl, -⟩ := bt _ rfl e
    rw [genApi] at hgc
    obtain ⟨y, -, rfl⟩ := Option.map_eq_some_iff.1 hgc
    have := put (.useAs y.2.rustPath n.name.name) (List.mem_singleton.2 rfl)
    exact ⟨n.name.ns, rfl, ⟨_, this, rfl⟩, .inl ⟨_, this⟩⟩
  | subclass n sup => cases (BridgeDecl.type.inj e).2.2.2

/-- **C68**: each type of an output module is said to be a C++ type at most once, and those which are are types of the
bridge which stand for it. -/
theorem extern_types_once (hI : CodegenItems hash cfg apis)
    (h : generateRsCode hash policy cfg includes headerName apis = some f) {p : List String} {x : Ident} {id : String}
    {t : Bool} (hx : f.Has p (.externType x id t)) :
    (∃ ns cxx, .type ns cxx x (some (p ++ [x])) ∈ f.externC) ∧
      (∀ id' t', f.Has p (.externType x id' t') → id' = id ∧ t' = t) ∧
      ∃ a ∈ apis, a.name = ⟨p, x⟩ ∧ (t = true ↔ ∃ mv ds g, TypeItem a .pod mv ds g) := by
  obtain ⟨codes, P⟩ := rs_parts h
  have key : ∀ {id : String} {t : Bool}, f.Has p (.externType x id t) → ∃ a ∈ apis, a.name = ⟨p, x⟩ ∧
      id = CppNameMap.map (CppNameMap.ofApis apis) a.name ∧
      ∃ kind mv ds, TypeItem a kind mv ds 0 ∧ kind ≠ .abstract ∧ t = decide (kind = .pod) := by
    intro id t hx
    obtain ⟨a, ha, rfl, c, hc, hi⟩ := (P.has_iff _ _).1 hx
    refine ⟨a, ha, ?_⟩
    have hcode := item_code hc
    cases hcode with
    | @type _ _ _ _ traits _ ht hs hk =>
      have hnt : .externType x id t ∉ traits := fun hx => by
        obtain ⟨_, _, _, e⟩ := traits_only hs hx
        cases e
      cases hk with
      | pod =>
        simp only [List.mem_append, List.mem_singleton, reduceCtorEq, or_false, hnt, false_or] at hi
        obtain ⟨rfl, rfl, rfl⟩ := OutDecl.externType.inj hi
        exact ⟨rfl, rfl, _, _, _, ht, by decide, rfl⟩
      | nonPod hk =>
        simp only [List.mem_append, List.mem_singleton, reduceCtorEq, or_false, hnt, false_or] at hi
        obtain ⟨rfl, rfl, rfl⟩ := OutDecl.externType.inj hi
        refine ⟨rfl, rfl, _, _, _, ht, ?_, ?_⟩ <;> rcases hk with rfl | rfl <;> decide
      | abstract | podGeneric | nonPodGeneric | abstractGeneric =>
        simp [hnt] at hi
    | makeString _ e => simp at hi
    | fn n g an r e hr =>
      obtain ⟨y, -, hy⟩ := List.mem_map.1 hi
      cases y <;> cases hy
    | bindgen e => simp at hi
    | ctype n q e => cases hi
    | rustType n s q e | rustFn n s q e => cases hi
    | subclassFn n sub d c e hg =>
      obtain ⟨_, _, -, -, rfl⟩ := subclassFn_code hg
      cases hi
    | subclass n sup c e hg =>
      obtain ⟨supers, hs, -, -, -, -, -, -, hit⟩ := subclass_code hg
      rw [hit] at hi
      simp only [List.cons_append, List.nil_append, List.mem_cons, List.mem_append, reduceCtorEq, false_or, or_false,
        List.not_mem_nil] at hi
      rcases hi with hi | hi
      · obtain ⟨_, _, _, e⟩ := supers_only hs hi
        cases e
      · split at hi
        · rw [List.mem_singleton] at hi; cases hi
        · cases hi
    | externCpp n q o x e hx hn => simp at hi
    | failed n err ctx e => cases ctx <;> simp [errorEntry] at hi
    | nothing e => cases hi
  obtain ⟨a, ha, hn, hid, kind, mv, ds, ht, hk, hkt⟩ := key hx
  refine ⟨?_, ?_, a, ha, hn, ?_⟩
  · have hb := HasBridgeType.type ht
    rw [hn, decide_eq_true hk] at hb
    exact ⟨_, _, (bridge_types_exact h _ _ _ _).2 ⟨a, ha, _, _, hb, rfl⟩⟩
  · intro id' t' hx'
    obtain ⟨a', ha', hn', hid', kind', mv', ds', ht', hk', hkt'⟩ := key hx'
    have : a' = a := List.inj_on_of_nodup_map hI.names ha' ha (hn'.trans hn.symm)
    subst this
    refine ⟨hid'.trans hid.symm, ?_⟩
    rw [hkt, hkt', (typeItem_unique ht ht').1]
  · rw [hkt, decide_eq_true_iff]
    constructor
    · rintro rfl; exact ⟨_, _, _, ht⟩
    · rintro ⟨_, _, _, hp⟩
      exact (typeItem_unique ht hp).1

/-! ## Smart pointers and vectors -/

/-- Objects of the type can be destroyed. -/
inductive Destroyable : FnApi → Ident → Prop
  | type {a : FnApi} {kind : TypeKind} {mv : Bool} (h : TypeItem a kind mv true 0) : Destroyable a a.name.name
  | subclass (n : ApiName) (sup : QName) : Destroyable (.subclass n sup) n.cppPeer.name

/-- Objects of the type can be moved. -/
inductive Movable : FnApi → Ident → Prop
  | type {a : FnApi} {kind : TypeKind} {ds : Bool} (h : TypeItem a kind true ds 0) : Movable a a.name.name

/-- The type is asked for a smart pointer or vector of. -/
def PtrImpl.Wanted (a : FnApi) : PtrImpl → Prop
  | .uniquePtr t | .sharedPtr t | .weakPtr t => Destroyable a t
  | .cxxVector t => Movable a t

/-- The type such a thing is of. -/
def PtrImpl.of : PtrImpl → Ident
  | .uniquePtr t | .sharedPtr t | .weakPtr t | .cxxVector t => t

omit hash policy includes headerName apis f in
theorem mem_implItems (x : Ident) (mv ds : Bool) (d : PtrImpl) :
    d ∈ implItems cfg x mv ds ↔ cfg.excludeImpls = false ∧ d.of = x ∧
      match d with
      | .cxxVector _ => mv = true
      | _ => ds = true := by
  unfold implItems
  cases cfg.excludeImpls <;> cases mv <;> cases ds <;> cases d <;> simp [PtrImpl.of]

omit hash policy cfg includes headerName apis f in
theorem item_impls {e : RsEnv} {a : FnApi} {c : ApiCode} (h : ItemCode e a c) (d : PtrImpl) :
    d ∈ c.impls ↔ e.cfg.excludeImpls = false ∧ d.Wanted a := by
  have none_if : (∀ k m s g, ¬ TypeItem a k m s g) → (∀ n sup, a ≠ .subclass n sup) → c.impls = [] →
      (d ∈ c.impls ↔ e.cfg.excludeImpls = false ∧ d.Wanted a) := by
    intro h1 h2 h3
    rw [h3]
    refine ⟨fun hx => (by cases hx), fun ⟨_, hw⟩ => ?_⟩
    cases d with
    | uniquePtr t | sharedPtr t | weakPtr t =>
      cases hw with
      | type h => exact absurd h (h1 _ _ _ _)
      | subclass n sup => exact absurd rfl (h2 n sup)
    | cxxVector t =>
      cases hw with
      | type h => exact absurd h (h1 _ _ _ _)
  cases h with
  | @type k m s g traits _ ht hs hk =>
    have hns : ∀ n sup, a ≠ .subclass n sup := by rintro n sup rfl; cases ht
    have dest : ∀ t, Destroyable a t ↔ t = a.name.name ∧ s = true ∧ g = 0 := by
      intro t
      constructor
      · intro hd
        cases hd with
        | type h => obtain ⟨-, -, e1, e2⟩ := typeItem_unique ht h; exact ⟨rfl, e1, e2⟩
        | subclass n sup => exact absurd rfl (hns n sup)
      · rintro ⟨rfl, rfl, rfl⟩; exact .type ht
    have mova : ∀ t, Movable a t ↔ t = a.name.name ∧ m = true ∧ g = 0 := by
      intro t
      constructor
      · intro hd
        cases hd with
        | type h => obtain ⟨-, e1, -, e2⟩ := typeItem_unique ht h; exact ⟨rfl, e1, e2⟩
      · rintro ⟨rfl, rfl, rfl⟩; exact .type ht
    cases hk with
    | pod | nonPod | abstract =>
      rw [mem_implItems]
      cases d <;> simp [PtrImpl.Wanted, PtrImpl.of, dest, mova]
    | podGeneric hg | nonPodGeneric _ hg | abstractGeneric hg =>
      cases d <;> simp [PtrImpl.Wanted, dest, mova, Nat.ne_of_gt hg]
  | subclass n sup c e hg =>
    subst e
    obtain ⟨supers, hs, -, hi, -⟩ := subclass_code hg
    rw [hi, mem_implItems]
    have dest : ∀ t, Destroyable (.subclass n sup) t ↔ t = n.cppPeer.name := by
      intro t
      constructor
      · intro hd
        cases hd with
        | type h => cases h
        | subclass => rfl
      · rintro rfl; exact .subclass n sup
    have mova : ∀ t, ¬ Movable (.subclass n sup) t := by
      intro t hd
      cases hd with
      | type h => cases h
    cases d <;> simp [PtrImpl.Wanted, PtrImpl.of, dest, mova]
  | makeString _ e | ctype _ _ e | rustType _ _ _ e | rustFn _ _ _ e | externCpp _ _ _ _ e | fn _ _ _ _ e =>
    subst e
    exact none_if (fun _ _ _ _ h => by cases h) (fun _ _ h => by cases h) rfl
  | failed _ _ ctx e =>
    subst e
    exact none_if (fun _ _ _ _ h => by cases h) (fun _ _ h => by cases h) (by cases ctx <;> rfl)
  | subclassFn n sub dd c e hg =>
    subst e
    obtain ⟨_, _, -, -, rfl⟩ := subclassFn_code hg
    exact none_if (fun _ _ _ _ h => by cases h) (fun _ _ h => by cases h) rfl
  | bindgen e =>
    rcases e with ⟨_, _, rfl⟩ | ⟨_, _, _, _, rfl⟩ <;>
      exact none_if (fun _ _ _ _ h => by cases h) (fun _ _ h => by cases h) rfl
  | nothing e =>
    rcases e with ⟨_, _, rfl⟩ | ⟨_, _, rfl⟩ <;>
      exact none_if (fun _ _ _ _ h => by cases h) (fun _ _ h => by cases h) rfl

/-- **C68**: the bridge is asked for smart pointers to the types whose objects can be destroyed, and for vectors of those
whose objects can be moved, and for no others; and all of them are types of the bridge. -/
theorem bridge_impls_exact (h : generateRsCode hash policy cfg includes headerName apis = some f) (d : PtrImpl) :
    (d ∈ f.bridgeImpls ↔ cfg.excludeImpls = false ∧ ∃ a ∈ apis, d.Wanted a) ∧
      (d ∈ f.bridgeImpls → ∃ ns cxx al, .type ns cxx d.of al ∈ f.externC) := by
  obtain ⟨codes, P⟩ := rs_parts h
  have hiff : d ∈ f.bridgeImpls ↔ cfg.excludeImpls = false ∧ ∃ a ∈ apis, d.Wanted a := by
    rw [P.mem_impls]
    constructor
    · rintro ⟨a, ha, c, hc, hd⟩
      obtain ⟨h1, h2⟩ := (item_impls (item_code hc) d).1 hd
      exact ⟨h1, a, ha, h2⟩
    · rintro ⟨h1, a, ha, h2⟩
      obtain ⟨c, -, hc⟩ := P.each.left ha
      exact ⟨a, ha, c, hc, (item_impls (item_code hc) d).2 ⟨h1, h2⟩⟩
  refine ⟨hiff, fun hd => ?_⟩
  obtain ⟨-, a, ha, hw⟩ := hiff.1 hd
  have : ∃ q b, HasBridgeType a q b ∧ q.name = d.of := by
    cases d with
    | uniquePtr t | sharedPtr t | weakPtr t =>
      cases hw with
      | type h => exact ⟨_, _, .type h, rfl⟩
      | subclass n sup => exact ⟨_, _, .subclass n sup, rfl⟩
    | cxxVector t =>
      cases hw with
      | type h => exact ⟨_, _, .type h, rfl⟩
  obtain ⟨q, b, hb, hq⟩ := this
  exact ⟨_, _, _, (bridge_types_exact h _ _ _ _).2 ⟨a, ha, q, b, hb, by rw [← hq]; rfl⟩⟩

/-! ## What C++ calls -/

/-- **C68**: everything the bridge tells C++ it may use from Rust exists: types and functions named in directives are
imported, and the functions and types made up for subclasses are defined. -/
theorem rust_decls_defined (hI : CodegenItems hash cfg apis)
    (h : generateRsCode hash policy cfg includes headerName apis = some f) {d : RustDecl} (hd : d ∈ f.externRust) :
    match d with
    | .type n => ∃ p ∈ cfg.rustTypes, p.getLast? = some n ∧ .use p ∈ f.globals
    | .rustFn sig => ∃ r ∈ cfg.externRustFuns, r.sig = sig ∧ (r.hasReceiver = false → .use r.path ∈ f.globals)
    | .holder n => ∃ sub, f.Has [] (.holder n sub)
    | .removeOwnership n holder => .removeOwnership n holder ∈ f.globals ∧ .holder holder ∈ f.externRust
    | .subclassFn u n params ret => ∃ s, .subclassFn s ∈ f.globals ∧ s.isUnsafe = u ∧ s.name = n ∧
        All2 (fun a b => a.unqualify = some b) s.params params ∧ unqualifyRetTy s.ret = some ret := by
  obtain ⟨codes, P⟩ := rs_parts h
  obtain ⟨a, ha, c, hc, hdc⟩ := (P.mem_externRust d).1 hd
  have glob : ∀ g, g ∈ c.globals → g ∈ f.globals := fun g hg => (P.mem_globals g).2 ⟨a, ha, c, hc, hg⟩
  have hcode := item_code hc
  cases hcode with
  | @type _ _ _ _ traits _ ht hs hk => cases hk <;> cases hdc
  | makeString _ e | ctype _ _ e | externCpp _ _ _ _ e | fn _ _ _ _ e => cases hdc
  | bindgen e | nothing e => cases hdc
  | failed _ _ ctx e => cases ctx <;> cases hdc
  | rustType n s p e hp hl =>
    rw [List.mem_singleton] at hdc
    subst hdc
    exact ⟨p, hp, hl, glob _ (List.mem_singleton.2 rfl)⟩
  | rustFn n s r e hr hn =>
    rw [List.mem_singleton] at hdc
    subst hdc
    exact ⟨r, hr, rfl, fun hf => glob _ (by simp [hf])⟩
  | subclassFn n sub dd c e hg =>
    obtain ⟨params, ret, hp, hret, rfl⟩ := subclassFn_code hg
    rw [List.mem_singleton] at hdc
    subst hdc
    exact ⟨_, glob _ (List.mem_singleton.2 rfl), rfl, rfl, mapM_all2 hp, hret⟩
  | subclass n sup c e hg =>
    obtain ⟨supers, hs, -, -, hgl, hr, -, -, hit⟩ := subclass_code hg
    have hns : a.name.ns = [] := by subst e; exact hI.subs n sup ha
    rw [hr] at hdc
    rcases List.mem_cons.1 hdc with rfl | hdc
    · exact ⟨n.name.name, (P.has_iff _ _).2 ⟨a, ha, hns, c, hc, by rw [hit]; simp⟩⟩
    · rw [List.mem_singleton] at hdc
      subst hdc
      exact ⟨glob _ (by rw [hgl]; exact List.mem_singleton.2 rfl),
        (P.mem_externRust _).2 ⟨a, ha, c, hc, by rw [hr]; exact List.mem_cons_self⟩⟩

/-! ## Traits for subclasses -/

/-- The virtual methods of a class, as found among the items. -/
def methodsOf (apis : List FnApi) (q : QName) : List SuperclassMethod :=
  apis.filterMap fun a =>
    match a with
    | .subclassTraitItem _ d => if d.receiver = q then some d else none
    | _ => none

omit hash policy includes headerName f in
/-- The methods gathered for a class: there are some for the superclasses named in directives. -/
theorem superclass_methods (q : QName) : AMap.get? (superclassMethods cfg apis) q =
    if ∃ s ∈ cfg.subclasses, QName.ofCppName s.superclass = q then some (methodsOf apis q) else none := by
  have start : ∀ (l : List SubclassReq) (m : AMap QName (List SuperclassMethod)),
      AMap.get? (l.foldl (init := m) fun m s => AMap.insert m (QName.ofCppName s.superclass) []) q =
        if ∃ s ∈ l, QName.ofCppName s.superclass = q then some [] else AMap.get? m q := by
    intro l
    induction l with
    | nil => intro m; simp
    | cons s l ih =>
      intro m
      rw [List.foldl_cons, ih, AMap.get?_insert]
      by_cases h1 : ∃ s ∈ l, QName.ofCppName s.superclass = q
      · rw [if_pos h1, if_pos (by obtain ⟨s', hs', e⟩ := h1; exact ⟨s', List.mem_cons_of_mem _ hs', e⟩)]
      · rw [if_neg h1]
        by_cases h2 : QName.ofCppName s.superclass = q
        · rw [if_pos (by simpa using h2), if_pos ⟨s, List.mem_cons_self, h2⟩]
        · rw [if_neg (by simpa using h2), if_neg]
          rintro ⟨s', hs', e⟩
          rcases List.mem_cons.1 hs' with rfl | hs'
          · exact h2 e
          · exact h1 ⟨s', hs', e⟩
  have step : ∀ (l : List FnApi) (m : AMap QName (List SuperclassMethod)),
      AMap.get? (l.foldl (init := m) fun m a =>
        match a with
        | .subclassTraitItem _ d =>
          match AMap.get? m d.receiver with
          | some l => AMap.insert m d.receiver (l ++ [d])
          | none => m
        | _ => m) q = (AMap.get? m q).map (· ++ methodsOf l q) := by
    intro l
    induction l with
    | nil => intro m; simp [methodsOf]
    | cons a l ih =>
      intro m
      rw [List.foldl_cons, ih]
      by_cases hx : ∃ n d, a = .subclassTraitItem n d
      · obtain ⟨n, d, rfl⟩ := hx
        dsimp only
        by_cases hr : d.receiver = q
        · have : methodsOf (.subclassTraitItem n d :: l) q = d :: methodsOf l q := by
            rw [methodsOf, List.filterMap_cons]; dsimp only; rw [if_pos hr]; rfl
          rw [this]
          cases hg : AMap.get? m d.receiver with
          | none => rw [← hr, hg]; rfl
          | some l' => rw [← hr] at *; dsimp only; rw [AMap.get?_insert, hg]; simp
        · have : methodsOf (.subclassTraitItem n d :: l) q = methodsOf l q := by
            rw [methodsOf, List.filterMap_cons]; dsimp only; rw [if_neg hr]; rfl
          rw [this]
          cases hg : AMap.get? m d.receiver with
          | none => rfl
          | some l' => dsimp only; rw [AMap.get?_insert, if_neg (by simpa using hr)]
      · have : methodsOf (a :: l) q = methodsOf l q := by
          rw [methodsOf, List.filterMap_cons]
          cases a <;> first | rfl | exact absurd ⟨_, _, rfl⟩ hx
        rw [this]
        cases a <;> first | rfl | exact absurd ⟨_, _, rfl⟩ hx
  rw [superclassMethods]
  refine (step apis _).trans ?_
  rw [start]
  split
  · simp
  · rfl

/-- The method of the trait `X_methods` for a virtual method of `X`. -/
structure MethodFor (m : SuperclassMethod) (t : TraitFn) : Prop where
  name : t.name = m.name
  unsafe_ : t.isUnsafe = m.requiresUnsafe.wrapperToken
  receiver : t.selfMut = true ↔ m.receiverMutability = .mutable
  params : ∃ self, m.params = self :: t.rest
  ret : t.ret = m.retType
  /-- There is a default, which calls the superclass, unless the method is pure. -/
  body : t.body = if m.isPureVirtual then none else some (m.name ++ "_super", argsFromSig m.params)

/-- The method of the trait `X_supers` for a virtual method of `X` which is not pure. -/
structure SuperFor (m : SuperclassMethod) (t : TraitFn) : Prop where
  name : t.name = m.name ++ "_super"
  unsafe_ : t.isUnsafe = m.requiresUnsafe.wrapperToken
  receiver : t.selfMut = true ↔ m.receiverMutability = .mutable
  params : ∃ self, m.params = self :: t.rest
  ret : t.ret = m.retType
  body : t.body = none

/-- The method of a subclass which implements one of `X_supers`. -/
structure ImplFor (m : SuperclassMethod) (t : SupersFn) : Prop where
  name : t.name = m.name ++ "_super"
  unsafe_ : t.isUnsafe = m.requiresUnsafe.wrapperToken
  receiver : t.selfMut = true ↔ m.receiverMutability = .mutable
  params : ∃ self, m.params = self :: t.rest
  ret : t.ret = m.retType
  peer : t.peerMut = t.selfMut
  callee : t.callee = t.name
  args : t.args = m.paramNames.drop 1

/-- The items a class is a superclass through: not a class template which cannot be made objects of. -/
def CanHaveTraits (a : FnApi) : Prop := ∃ kind mv ds g, TypeItem a kind mv ds g ∧ (kind = .abstract → g = 0)

omit hash policy cfg includes headerName apis f in
theorem isMut_iff (r : ReceiverMutability) : r.isMut = true ↔ r = .mutable := by cases r <;> decide

omit hash policy cfg includes headerName apis f in
theorem trait_fns {m : SuperclassMethod} {x : Option TraitFn × TraitFn} (h : traitFns m = some x) :
    MethodFor m x.2 ∧ (m.isPureVirtual = true ∧ x.1 = none ∨ m.isPureVirtual = false ∧ ∃ t, x.1 = some t ∧ SuperFor m t) := by
  rw [traitFns] at h
  obtain ⟨rest, hr, h⟩ := Option.map_eq_some_iff.1 h
  have hp : ∃ self, m.params = self :: rest := by
    cases hm : m.params with
    | nil => rw [hm] at hr; cases hr
    | cons a l => rw [hm] at hr; rw [← Option.some.inj hr]; exact ⟨a, rfl⟩
  cases hpure : m.isPureVirtual with
  | true =>
    rw [hpure] at h
    subst h
    exact ⟨⟨rfl, rfl, isMut_iff _, hp, rfl, by rw [hpure]; rfl⟩, .inl ⟨rfl, rfl⟩⟩
  | false =>
    rw [hpure] at h
    subst h
    exact ⟨⟨rfl, rfl, isMut_iff _, hp, rfl, by rw [hpure]; rfl⟩, .inr ⟨rfl, _, rfl, ⟨rfl, rfl, isMut_iff _, hp, rfl, rfl⟩⟩⟩

omit hash policy cfg includes headerName apis f in
theorem trait_lists {ms : List SuperclassMethod} {l : List (Option TraitFn × TraitFn)}
    (h : All2 (fun m x => traitFns m = some x) ms l) :
    All2 MethodFor ms (l.map (·.2)) ∧ All2 SuperFor (ms.filter fun m => !m.isPureVirtual) (l.filterMap (·.1)) := by
  induction h with
  | nil => exact ⟨.nil, .nil⟩
  | cons h _ ih =>
    obtain ⟨h1, h2⟩ := trait_fns h
    refine ⟨.cons h1 ih.1, ?_⟩
    rw [List.filter_cons, List.filterMap_cons]
    rcases h2 with ⟨hp, hx⟩ | ⟨hp, t, hx, ht⟩
    · rw [hp, hx]; exact ih.2
    · rw [hp, hx]; exact .cons ht ih.2

omit hash policy cfg includes headerName apis f in
theorem impl_list {ms : List SuperclassMethod} {l : List SupersFn} (h : All2 (fun m x => supersFn m = some x) ms l) :
    All2 ImplFor ms l := by
  refine h.mono fun m x _ hx => ?_
  rw [supersFn] at hx
  obtain ⟨rest, hr, rfl⟩ := Option.map_eq_some_iff.1 hx
  have hp : ∃ self, m.params = self :: rest := by
    cases hm : m.params with
    | nil => rw [hm] at hr; cases hr
    | cons a l => rw [hm] at hr; rw [← Option.some.inj hr]; exact ⟨a, rfl⟩
  exact ⟨rfl, rfl, isMut_iff _, hp, rfl, rfl, rfl, rfl⟩

omit hash policy cfg includes headerName apis f in
theorem supers_name (q : QName) : supersTraitName q = ⟨q.ns, q.name ++ "_supers"⟩ := by
  rw [supersTraitName, String.append_assoc]; rfl

omit hash policy cfg includes headerName apis f in
theorem methods_name (q : QName) : methodsTraitName q = ⟨q.ns, q.name ++ "_methods"⟩ := by
  rw [methodsTraitName, String.append_assoc]; rfl

omit hash policy cfg includes headerName apis f in
/-- No built-in type has a name like that of a trait. -/
theorem trait_path (ns : List String) (x : Ident) (h : x.toList.getLast? = some 's') :
    QName.toTypePath ⟨ns, x⟩ = "output" :: (ns ++ [x]) := by
  rw [QName.toTypePath, considerSubstitution]
  cases hk : knownGet ⟨ns, x⟩ with
  | none => rfl
  | some d =>
    refine absurd h (known_forall (fun q _ => q.name.toList.getLast? ≠ some 's') ?_ hk)
    have : ∀ n ∈ knownTypesLit.allNames, n.name.toList.getLast? ≠ some 's' := by decide +kernel
    exact fun n hn _ _ => this n hn

/-- **C68**: beside a superclass there are the traits for its subclasses: `X_methods` has a method for each of its virtual
methods, and `X_supers`, which is there if some are not pure, one for each of those. -/
theorem superclass_traits (h : generateRsCode hash policy cfg includes headerName apis = some f) {a : FnApi} (ha : a ∈ apis)
    (ht : CanHaveTraits a) {s : SubclassReq} (hs : s ∈ cfg.subclasses) (hsn : QName.ofCppName s.superclass = a.name) :
    ∃ mains supers, All2 MethodFor (methodsOf apis a.name) mains ∧
      All2 SuperFor ((methodsOf apis a.name).filter fun m => !m.isPureVirtual) supers ∧
      f.Has a.name.ns (.trait (a.name.name ++ "_methods") (if supers = [] then none else some (a.name.name ++ "_supers")) mains) ∧
      (supers ≠ [] → f.Has a.name.ns (.trait (a.name.name ++ "_supers") none supers)) := by
  obtain ⟨codes, P⟩ := rs_parts h
  obtain ⟨c, -, hc⟩ := P.each.left ha
  obtain ⟨kind, mv, ds, g, hti, hg⟩ := ht
  have hm : AMap.get? (superclassMethods cfg apis) a.name = some (methodsOf apis a.name) := by
    rw [superclass_methods, if_pos ⟨s, hs, hsn⟩]
  have : ∃ traits, superclassTraits a.name (some (methodsOf apis a.name)) = some traits ∧ ∀ i ∈ traits, i ∈ c.piece.items := by
    have hcode := item_code hc
    cases hcode with
    | @type k' m' d' g' tr _ ht' hs' hk =>
      refine ⟨tr, by rw [← hm]; exact hs', fun i hi => ?_⟩
      obtain ⟨rfl, -, -, rfl⟩ := typeItem_unique hti ht'
      cases hk with
      | pod | nonPod => exact List.mem_append_left _ (List.mem_append_left _ hi)
      | abstract | podGeneric | nonPodGeneric => exact List.mem_append_left _ hi
      | abstractGeneric h0 => rw [hg rfl] at h0; exact absurd h0 (Nat.lt_irrefl _)
    | makeString _ e | fn _ _ _ _ e | ctype _ _ e | rustType _ _ _ e | rustFn _ _ _ e | subclassFn _ _ _ _ e
    | subclass _ _ _ e | externCpp _ _ _ _ e | failed _ _ _ e => subst e; cases hti
    | bindgen e => rcases e with ⟨_, _, rfl⟩ | ⟨_, _, _, _, rfl⟩ <;> cases hti
    | nothing e => rcases e with ⟨_, _, rfl⟩ | ⟨_, _, rfl⟩ <;> cases hti
  obtain ⟨traits, htr, hin⟩ := this
  have put : ∀ i ∈ traits, f.Has a.name.ns i := fun i hi => (P.has_iff _ i).2 ⟨a, ha, rfl, c, hc, hin i hi⟩
  rw [superclassTraits, supers_name, methods_name] at htr
  obtain ⟨l, hl, rfl⟩ := Option.map_eq_some_iff.1 htr
  obtain ⟨h1, h2⟩ := trait_lists (mapM_all2 hl)
  refine ⟨_, _, h1, h2, ?_⟩
  dsimp only at put
  split at put
  · rename_i hne
    refine ⟨?_, fun _ => put _ List.mem_cons_self⟩
    rw [if_neg hne]
    exact put _ (List.mem_cons_of_mem _ List.mem_cons_self)
  · rename_i he
    rw [Classical.not_not] at he
    refine ⟨?_, fun hne => absurd he hne⟩
    rw [if_pos he]
    exact put _ List.mem_cons_self

/-- **C68**: what a subclass implements is a trait which exists beside its superclass, and it has just the methods of this
trait, with the same signatures. -/
theorem supers_implemented (hI : CodegenItems hash cfg apis)
    (h : generateRsCode hash policy cfg includes headerName apis = some f) {p path : List String} {sub : Ident}
    {fns : List SupersFn} (hx : f.Has p (.implSupers path sub fns)) :
    p = [] ∧ ∃ n sup, .subclass n sup ∈ apis ∧ sub = n.name.name ∧
      path = "output" :: (sup.ns ++ [sup.name ++ "_supers"]) ∧ fns ≠ [] ∧
      All2 ImplFor ((methodsOf apis sup).filter fun m => !m.isPureVirtual) fns ∧
      ∀ a ∈ apis, a.name = sup → CanHaveTraits a → ∃ decls, f.Has sup.ns (.trait (sup.name ++ "_supers") none decls) ∧
        All2 (fun d t => d.name = t.name ∧ d.isUnsafe = t.isUnsafe ∧ d.selfMut = t.selfMut ∧ d.rest = t.rest ∧ d.ret = t.ret)
          decls fns := by
  obtain ⟨codes, P⟩ := rs_parts h
  obtain ⟨a, ha, rfl, c, hc, hi⟩ := (P.has_iff _ _).1 hx
  have hcode := item_code hc
  cases hcode with
  | @type _ _ _ _ traits _ ht hs hk =>
    exfalso
    have hnt : .implSupers path sub fns ∉ traits := fun hx => by
      obtain ⟨_, _, _, e⟩ := traits_only hs hx
      cases e
    cases hk <;> simp [hnt] at hi
  | makeString _ e => simp at hi
  | fn n g an r e hr =>
    obtain ⟨y, -, hy⟩ := List.mem_map.1 hi
    cases y <;> cases hy
  | bindgen e => simp at hi
  | ctype n q e => cases hi
  | rustType n s q e | rustFn n s q e => cases hi
  | subclassFn n sub d c e hg =>
    obtain ⟨_, _, -, -, rfl⟩ := subclassFn_code hg
    cases hi
  | externCpp n q o x e hx hn => simp at hi
  | failed n err ctx e => cases ctx <;> simp [errorEntry] at hi
  | nothing e => cases hi
  | subclass n sup c e hg =>
    subst e
    refine ⟨hI.subs n sup ha, n, sup, ha, ?_⟩
    obtain ⟨supers, hs, -, -, -, -, -, -, hit⟩ := subclass_code hg
    have hin : .implSupers path sub fns ∈ supers := by
      rw [hit] at hi
      simp only [List.cons_append, List.nil_append, List.mem_cons, List.mem_append, reduceCtorEq, false_or, or_false,
        List.not_mem_nil] at hi
      rcases hi with hi | hi
      · exact hi
      · split at hi
        · rw [List.mem_singleton] at hi; cases hi
        · cases hi
    change supersImpl n sup (AMap.get? (superclassMethods cfg apis) sup) = some supers at hs
    rw [superclass_methods] at hs
    split at hs
    · rename_i hsup
      rw [supersImpl, supers_name] at hs
      obtain ⟨l, hl, rfl⟩ := Option.map_eq_some_iff.1 hs
      have himpl := impl_list (mapM_all2 hl)
      split at hin
      · rename_i hne
        rw [List.mem_singleton] at hin
        obtain ⟨rfl, rfl, rfl⟩ := OutDecl.implSupers.inj hin
        refine ⟨rfl, trait_path _ _ (by simp [String.toList_append]), hne, himpl, ?_⟩
        rintro b hb rfl hct
        obtain ⟨sr, hsr, hsn⟩ := hsup
        obtain ⟨mains, decls, -, hd, -, ht⟩ := superclass_traits h hb hct hsr hsn
        have hlen : decls ≠ [] := by
          rintro rfl
          have e1 := hd.length_eq
          have e2 := himpl.length_eq
          rw [e1] at e2
          exact hne (List.length_eq_zero_iff.1 e2.symm)
        refine ⟨decls, ht hlen, ?_⟩
        clear hlen hne ht hin hi hl hit hg hs hc P hx
        generalize (methodsOf apis b.name).filter (fun m => !m.isPureVirtual) = ms at hd himpl
        induction hd generalizing fns with
        | nil => cases himpl; exact .nil
        | cons h1 _ ih =>
          cases himpl with
          | cons h2 h3 =>
            refine .cons ⟨h1.name.trans h2.name.symm, h1.unsafe_.trans h2.unsafe_.symm, ?_, ?_, h1.ret.trans h2.ret.symm⟩
              (ih h3)
            · exact Bool.eq_iff_iff.2 (h1.receiver.trans h2.receiver.symm)
            · obtain ⟨_, e1⟩ := h1.params
              obtain ⟨_, e2⟩ := h2.params
              exact (List.cons.inj (e1.symm.trans e2)).2
      · cases hin
    · rw [supersImpl] at hs
      rw [← Option.some.inj hs] at hin
      cases hin

/-! ## Functions called from C++ -/

/-- The names of the parameters, but for the first. -/
def laterNames : List FnArg → List Ident
  | [] => []
  | _ :: l => l.filterMap fun p =>
    match p with
    | .typed n _ => some n
    | .receiver _ => none

omit hash policy cfg includes headerName apis f in
theorem args_unqualified {l r : List FnArg} (h : All2 (fun a b => a.unqualify = some b) l r) :
    argsFromSig r = laterNames l := by
  have key : ∀ {l r : List FnArg}, All2 (fun a b => a.unqualify = some b) l r →
      (r.filterMap fun p => match p with
        | .receiver _ => none
        | .typed n _ => some n) = l.filterMap fun p => match p with
        | .typed n _ => some n
        | .receiver _ => none := by
    intro l r h
    induction h with
    | nil => rfl
    | @cons a b l r h _ ih =>
      cases a with
      | typed n t =>
        obtain ⟨t', -, rfl⟩ := Option.map_eq_some_iff.1 h
        rw [List.filterMap_cons, List.filterMap_cons, ih]
      | receiver t =>
        rw [← Option.some.inj h, List.filterMap_cons, List.filterMap_cons, ih]
  cases h with
  | nil => rfl
  | cons _ h => exact key h

/-- **C68**: a function which C++ calls for a virtual method calls a method of the trait beside the superclass, with all
its own arguments but the first. If this method is among the virtual methods which were gathered for the superclass then
the trait has it. What is missing is that it always is: see `override_without_trait_method_false`. -/
theorem override_calls_method_partial (h : generateRsCode hash policy cfg includes headerName apis = some f)
    {s : SubclassFnDef} (hs : .subclassFn s ∈ f.globals) :
    ∃ n sub d, .rustSubclassFn n sub d ∈ apis ∧ s.name = n.name.name ∧ s.method = d.methodName ∧
      s.params = d.params ∧ s.ret = d.ret ∧ s.args = laterNames d.params ∧
      (s.mutable = true ↔ d.receiverMutability = .mutable) ∧
      s.trait = "output" :: (d.superclass.ns ++ [d.superclass.name ++ "_methods"]) ∧
      ∀ m ∈ methodsOf apis d.superclass, m.name = d.methodName → ∀ a ∈ apis, a.name = d.superclass → CanHaveTraits a →
        ∀ r ∈ cfg.subclasses, QName.ofCppName r.superclass = d.superclass →
        ∃ parent fns t, f.Has d.superclass.ns (.trait (d.superclass.name ++ "_methods") parent fns) ∧ t ∈ fns ∧
          t.name = s.method ∧ ∃ self, m.params = self :: t.rest := by
  obtain ⟨codes, P⟩ := rs_parts h
  obtain ⟨a, ha, c, hc, hi⟩ := (P.mem_globals _).1 hs
  have hcode := item_code hc
  cases hcode with
  | @type _ _ _ _ traits _ ht hs hk => cases hk <;> cases hi
  | makeString _ e => rw [List.mem_singleton] at hi; cases hi
  | ctype _ _ e | externCpp _ _ _ _ e | fn _ _ _ _ e => cases hi
  | bindgen e | nothing e => cases hi
  | failed _ _ ctx e => cases ctx <;> cases hi
  | rustType n s p e hp hl => rw [List.mem_singleton] at hi; cases hi
  | rustFn n s r e hr hn =>
    dsimp only at hi
    split at hi
    · cases hi
    · rw [List.mem_singleton] at hi; cases hi
  | subclass n sup c e hg =>
    obtain ⟨supers, -, -, -, hgl, -⟩ := subclass_code hg
    rw [hgl, List.mem_singleton] at hi
    cases hi
  | subclassFn n sub d c e hg =>
    subst e
    obtain ⟨params, ret, hp, hret, rfl⟩ := subclassFn_code hg
    rw [List.mem_singleton] at hi
    have hi := GlobalDecl.subclassFn.inj hi
    subst hi
    refine ⟨n, sub, d, ha, rfl, rfl, rfl, rfl, args_unqualified (mapM_all2 hp), isMut_iff _, ?_, ?_⟩
    · rw [methods_name]
      exact trait_path _ _ (by simp [String.toList_append])
    · rintro m hm hmn b hb hbn hct r hr hrn
      obtain ⟨mains, supers, h1, -, h3, -⟩ := superclass_traits h hb hct hr (hrn.trans hbn.symm)
      rw [hbn] at h1 h3
      obtain ⟨t, ht, hmt⟩ := h1.left hm
      exact ⟨_, mains, t, h3, ht, hmt.name.trans hmn, hmt.params⟩

/-! ## What is left of items nothing is generated for -/

/-- **C68, C04**: a marker with a context can be seen in the generated code: as a type of its name in the module of its
namespace, or as a method of its class. -/
theorem marker_visible (h : generateRsCode hash policy cfg includes headerName apis = some f) {n : ApiName} {err : Err}
    {ctx : ErrorContext} (ha : .ignoredItem n err (some ctx) ∈ apis) :
    match ctx with
    | .item id | .sanitizedItem id => f.Has n.name.ns (.failed id err)
    | .method ty id => f.HasMember n.name.ns ty (.failed id err) := by
  obtain ⟨codes, P⟩ := rs_parts h
  cases ctx with
  | item id | sanitizedItem id => exact (P.has_iff _ _).2 ⟨_, ha, rfl, _, rfl, List.mem_singleton.2 rfl⟩
  | method ty id => exact (P.member_iff _ _ _).2 ⟨_, ha, rfl, _, rfl, rfl⟩

/-- **C68, C04**: and conversely what is said to have failed did. -/
theorem failed_from_marker (h : generateRsCode hash policy cfg includes headerName apis = some f) {p : List String}
    {id : Ident} {err : Err} :
    (f.Has p (.failed id err) → ∃ n ctx, .ignoredItem n err (some ctx) ∈ apis ∧ n.name.ns = p ∧
      (ctx = .item id ∨ ctx = .sanitizedItem id)) ∧
    ∀ ty, f.HasMember p ty (.failed id err) → ∃ n, .ignoredItem n err (some (.method ty id)) ∈ apis ∧ n.name.ns = p := by
  obtain ⟨codes, P⟩ := rs_parts h
  constructor
  · intro hx
    obtain ⟨a, ha, rfl, c, hc, hi⟩ := (P.has_iff _ _).1 hx
    have hcode := item_code hc
    cases hcode with
    | @type _ _ _ _ traits _ ht hs hk =>
      have hnt : .failed id err ∉ traits := fun hx => by
        obtain ⟨_, _, _, e⟩ := traits_only hs hx
        cases e
      cases hk <;> simp [hnt] at hi
    | makeString _ e => simp at hi
    | fn n g an r e hr =>
      obtain ⟨y, -, hy⟩ := List.mem_map.1 hi
      cases y <;> cases hy
    | bindgen e => simp at hi
    | ctype n q e => cases hi
    | rustType n s q e | rustFn n s q e => cases hi
    | subclassFn n sub d c e hg =>
      obtain ⟨_, _, -, -, rfl⟩ := subclassFn_code hg
      cases hi
    | externCpp n q o x e hx hn => simp at hi
    | subclass n sup c e hg =>
      obtain ⟨supers, hs, -, -, -, -, -, -, hit⟩ := subclass_code hg
      rw [hit] at hi
      simp only [List.cons_append, List.nil_append, List.mem_cons, List.mem_append, reduceCtorEq, false_or, or_false,
        List.not_mem_nil] at hi
      rcases hi with hi | hi
      · obtain ⟨_, _, _, e⟩ := supers_only hs hi
        cases e
      · split at hi
        · rw [List.mem_singleton] at hi; cases hi
        · cases hi
    | failed n err' ctx e =>
      subst e
      cases ctx with
      | item _ =>
        rw [errorEntry, List.mem_singleton] at hi
        obtain ⟨rfl, rfl⟩ := OutDecl.failed.inj hi
        exact ⟨n, _, ha, rfl, .inl rfl⟩
      | sanitizedItem _ =>
        rw [errorEntry, List.mem_singleton] at hi
        obtain ⟨rfl, rfl⟩ := OutDecl.failed.inj hi
        exact ⟨n, _, ha, rfl, .inr rfl⟩
      | method _ _ => cases hi
    | nothing e => cases hi
  · intro ty hx
    obtain ⟨a, ha, rfl, c, hc, hi⟩ := (P.member_iff _ _ _).1 hx
    have hcode := item_code hc
    cases hcode with
    | @type _ _ _ _ traits _ ht hs hk => cases hk <;> cases hi
    | makeString _ e | ctype _ _ e | rustType _ _ _ e | rustFn _ _ _ e | externCpp _ _ _ _ e => cases hi
    | bindgen e | nothing e => cases hi
    | fn n g an r e hr =>
      obtain ⟨y, -, hy⟩ := Option.map_eq_some_iff.1 hi
      cases hy
    | subclassFn n sub d c e hg =>
      obtain ⟨_, _, -, -, rfl⟩ := subclassFn_code hg
      cases hi
    | subclass n sup c e hg =>
      obtain ⟨supers, hs, -, -, -, -, hn, -, -⟩ := subclass_code hg
      rw [hn] at hi
      cases hi
    | failed n err' ctx e =>
      subst e
      cases ctx with
      | item _ | sanitizedItem _ => cases hi
      | method t m =>
        rw [errorEntry] at hi
        have := Option.some.inj hi
        obtain ⟨rfl, e⟩ := Prod.mk.inj this
        obtain ⟨rfl, rfl⟩ := ImplMember.failed.inj e
        exact ⟨n, ha, rfl⟩

/-- **C68, C04**: the items which nothing is generated for, neither code nor a trace of their having been dropped. -/
theorem nothing_generated_iff {e : RsEnv} {a : FnApi} {c : ApiCode} (h : genApi e a = some c) :
    (c.externC = [] ∧ c.externRust = [] ∧ c.impls = [] ∧ c.globals = [] ∧ c.piece.items = [] ∧ c.piece.implEntry = none ∧
      c.piece.traitImplEntry = none) ↔
    ((∃ n err, a = .ignoredItem n err none) ∨ (∃ n d, a = .subclassTraitItem n d) ∨
      (∃ n g an, a = .function n g an ∧ (an.ignoreReason.isSome || !an.externallyCallable) = true) ∨
      ∃ mv ds g, TypeItem a .abstract mv ds g ∧ 0 < g) := by
  have hcode := item_code h
  cases hcode with
  | @type k m d g traits _ ht hs hk =>
    have none_ : ∀ P : Prop, (P ↔ k = .abstract ∧ 0 < g) → (P ↔ ((∃ n err, a = .ignoredItem n err none) ∨
        (∃ n d, a = .subclassTraitItem n d) ∨
        (∃ n g an, a = .function n g an ∧ (an.ignoreReason.isSome || !an.externallyCallable) = true) ∨
        ∃ mv ds g, TypeItem a .abstract mv ds g ∧ 0 < g)) := by
      intro P hP
      rw [hP]
      constructor
      · rintro ⟨rfl, hg⟩; exact .inr (.inr (.inr ⟨_, _, _, ht, hg⟩))
      · rintro (⟨_, _, rfl⟩ | ⟨_, _, rfl⟩ | ⟨_, _, _, rfl, -⟩ | ⟨_, _, _, ht', hg⟩)
        · cases ht
        · cases ht
        · cases ht
        · obtain ⟨rfl, -, -, rfl⟩ := typeItem_unique ht ht'
          exact ⟨rfl, hg⟩
    apply none_
    cases hk with
    | pod | abstract => simp
    | nonPod hk0 => rcases hk0 with rfl | rfl <;> simp
    | podGeneric hg => simp
    | nonPodGeneric hk0 hg => rcases hk0 with rfl | rfl <;> simp
    | abstractGeneric hg => simp [hg]
  | fn n g an r e hr =>
    subst e
    rcases fn_code hr with ⟨hi, rfl⟩ | ⟨hi, b, -, hb, -⟩
    · refine ⟨fun _ => .inr (.inr (.inl ⟨n, g, an, rfl, hi⟩)), fun _ => ⟨rfl, rfl, rfl, rfl, rfl, rfl, rfl⟩⟩
    · constructor
      · rintro ⟨h1, -⟩
        simp [FnResult.code, hb] at h1
      · rintro (⟨_, _, e⟩ | ⟨_, _, e⟩ | ⟨_, _, _, e, h⟩ | ⟨_, _, _, h, -⟩)
        · cases e
        · cases e
        · cases e; rw [hi] at h; cases h
        · cases h
  | makeString _ e | ctype _ _ e | externCpp _ _ _ _ e | rustType _ _ _ e | rustFn _ _ _ e =>
    subst e
    constructor
    · intro h; simp at h
    · rintro (⟨_, _, e⟩ | ⟨_, _, e⟩ | ⟨_, _, _, e, h⟩ | ⟨_, _, _, h, -⟩)
      · cases e
      · cases e
      · cases e
      · cases h
  | bindgen e =>
    constructor
    · intro h; simp at h
    · rcases e with ⟨_, _, rfl⟩ | ⟨_, _, _, _, rfl⟩ <;>
      · rintro (⟨_, _, e⟩ | ⟨_, _, e⟩ | ⟨_, _, _, e, h⟩ | ⟨_, _, _, h, -⟩)
        · cases e
        · cases e
        · cases e
        · cases h
  | subclassFn n sub d c e hg =>
    subst e
    obtain ⟨_, _, -, -, rfl⟩ := subclassFn_code hg
    constructor
    · intro h; simp at h
    · rintro (⟨_, _, e⟩ | ⟨_, _, e⟩ | ⟨_, _, _, e, h⟩ | ⟨_, _, _, h, -⟩)
      · cases e
      · cases e
      · cases e
      · cases h
  | subclass n sup c e hg =>
    subst e
    obtain ⟨supers, -, hC, -⟩ := subclass_code hg
    constructor
    · intro h; rw [hC] at h; simp at h
    · rintro (⟨_, _, e⟩ | ⟨_, _, e⟩ | ⟨_, _, _, e, h⟩ | ⟨_, _, _, h, -⟩)
      · cases e
      · cases e
      · cases e
      · cases h
  | failed n err ctx e =>
    subst e
    constructor
    · intro h; cases ctx <;> simp [errorEntry] at h
    · rintro (⟨_, _, e⟩ | ⟨_, _, e⟩ | ⟨_, _, _, e, h⟩ | ⟨_, _, _, h, -⟩)
      · cases e
      · cases e
      · cases e
      · cases h
  | nothing e =>
    refine ⟨fun _ => ?_, fun _ => ⟨rfl, rfl, rfl, rfl, rfl, rfl, rfl⟩⟩
    rcases e with h | h
    · exact .inl h
    · exact .inr (.inl h)

/-! ## Headers -/

/-- **C68**: the headers the bridge includes are those it was told to, and the header with the generated C++ if some item
needs any. -/
theorem bridge_includes (h : generateRsCode hash policy cfg includes headerName apis = some f) (x : String) :
    .incl x ∈ f.externC ↔ x ∈ includes ∨ (∃ a ∈ apis, a.needsCppCodegen = true) ∧ headerName = some x := by
  obtain ⟨codes, P⟩ := rs_parts h
  rw [P.mem_externC, List.any_eq_true]
  constructor
  · rintro (⟨a, ha, c, hc, hi⟩ | ⟨y, e, hy⟩)
    · exfalso
      have hcode := item_code hc
      cases hcode with
      | @type _ _ _ _ traits _ ht hs hk => cases hk <;> simp [bridgeType] at hi
      | makeString _ e | ctype _ _ e | externCpp _ _ _ _ e | rustType _ _ _ e | rustFn _ _ _ e => simp [bridgeType] at hi
      | bindgen e | nothing e => cases hi
      | fn n g an r e hr => obtain ⟨y, -, hy⟩ := List.mem_map.1 hi; cases hy
      | failed n err ctx e => cases ctx <;> cases hi
      | subclassFn n sub d c e hg =>
        obtain ⟨_, _, -, -, rfl⟩ := subclassFn_code hg
        cases hi
      | subclass n sup c e hg =>
        obtain ⟨supers, -, hC, -⟩ := subclass_code hg
        rw [hC] at hi
        simp [bridgeType] at hi
    · cases e; exact hy
  · intro hy; exact .inr ⟨x, rfl, hy⟩

end

end Verif
