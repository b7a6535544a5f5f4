import Verif.Implicit
import Verif.DepthFirstProps
import Verif.AbstractProps

/-!
# C13 and C14: constructors and destructors
-/

set_option autoImplicit false

namespace Verif

/-! ## Specification: what a class declares -/

/-- The kinds of member function which matter. -/
inductive MemberKind where
  | defaultCtor | copyCtor | moveCtor | otherCtor | destructor | assignment
deriving DecidableEq, Repr

/-- The class and kind of member a function declares. -/
def memberOf (f : FuncToConvert) (a : FnAnalysis) : Option (QName × MemberKind) :=
  match a.kind with
  | .method k c =>
    if f.specialMember = some .assignmentOperator then some (c, .assignment)
    else if k = .constructor true then some (c, .defaultCtor)
    else if k = .constructor false then some (c, .otherCtor)
    else none
  | .traitMethod .copyConstructor c _ => some (c, .copyCtor)
  | .traitMethod .moveConstructor c _ => some (c, .moveCtor)
  | .traitMethod .destructor c _ => some (c, .destructor)
  | _ => none

/-- The declarations of such members in the class, in order. -/
def declarations (c : QName) (k : MemberKind) : List FnPre1Api → List FuncToConvert
  | [] => []
  | .function _ f a :: l =>
    if memberOf f a = some (c, k) then f :: declarations c k l else declarations c k l
  | _ :: l => declarations c k l

/-- The class has an assignment operator whose parameters could not be understood. -/
def StrangeAssignment (apis : List FnPre1Api) (c : QName) : Prop :=
  ∃ n f a e, Api.function n f a ∈ apis ∧ memberOf f a = some (c, .assignment) ∧
    a.ignoreReason = some e ∧ e.err ≠ .assignmentOperator

/-- What is recorded of a member on account of its declarations: only if it is declared once and not
deleted is it there. -/
def asDeclared : List FuncToConvert → SpecialMemberFound
  | [f] => if f.isDeleted = some .deleted then .notPresent else .explicit f.cppVis
  | _ => .notPresent

/-! ## Specification: the members of the types of bases and fields -/

/-- The special members of a type. -/
structure Members where
  dflt : SpecialMemberFound
  dtor : SpecialMemberFound
  copy : SpecialMemberFound
  move : SpecialMemberFound
deriving DecidableEq, Repr

/-- The members recorded for a class. -/
def ItemsFound.members (i : ItemsFound) : Members :=
  ⟨i.defaultConstructor, i.destructor, i.constCopy, i.moveConstructor⟩

/-- Enums, pointers and references can be copied, moved and destroyed. -/
def scalarMembers : Members := ⟨.notPresent, .implicit, .implicit, .implicit⟩

/-- A type which autocxx knows without having seen its definition. -/
def knownMembers (hasMove hasCopy : Bool) : Members :=
  ⟨.explicit .pub, .explicit .pub, if hasCopy then .explicit .pub else .notPresent,
    if hasMove then .explicit .pub else .notPresent⟩

/-- The members of a type, where known, given those of the classes. -/
inductive HasMembers (apis : List FnPre1Api) (found : AMap QName ItemsFound) : QName → Members → Prop
  | enum {q : QName} (n : ApiName) (d : String) (h : Api.enum n d ∈ apis) (hq : n.name = q) :
      HasMembers apis found q scalarMembers
  | known {q : QName} {m c : Bool} (h : ∀ n d, Api.enum n d ∈ apis → n.name ≠ q)
      (hk : constructorDetails q = some (m, c)) : HasMembers apis found q (knownMembers m c)
  | cls {q : QName} {i : ItemsFound} (h : ∀ n d, Api.enum n d ∈ apis → n.name ≠ q)
      (hk : constructorDetails q = none) (hi : found.get? q = some i) : HasMembers apis found q i.members

/-- The class (or other type) a field holds directly or in an array. -/
def HoldsType (ty : Ty) (q : QName) : Prop :=
  ∃ segs g, (ty = .path segs g ∨ ∃ n, ty = .array (.path segs g) n) ∧ QName.ofTypePath segs = some q

/-- The field is held by value. -/
def FieldInfo.ByValue (f : FieldInfo) : Prop := f.typeKind = .regular ∨ ∃ id, f.typeKind = .subclassHolder id

/-- The members of the type of a field, where known. -/
inductive FieldMembers (apis : List FnPre1Api) (found : AMap QName ItemsFound) : FieldInfo → Members → Prop
  | value {f : FieldInfo} {q : QName} {m : Members} (hv : f.ByValue) (ht : HoldsType f.ty q)
      (hm : HasMembers apis found q m) : FieldMembers apis found f m
  | scalar {f : FieldInfo} (hv : ¬ f.ByValue) : FieldMembers apis found f scalarMembers

/-- The analysis considers this class. -/
def Analysed (a : PodAnalysis) : Prop :=
  (a.kind = .abstract ∨ a.kind = .pod ∨ a.kind = .nonPod) ∧ a.numGenerics = 0 ∧
    a.inAnonymousNamespace = false

/-- The members of all bases and fields are known, and so are the assignment operators. -/
def Understood (apis : List FnPre1Api) (found : AMap QName ItemsFound) (c : QName) (a : PodAnalysis) :
    Prop :=
  (∀ b ∈ a.bases, ∃ m, HasMembers apis found b m) ∧
  (∀ f ∈ a.fieldInfo, ∃ m, FieldMembers apis found f m) ∧ ¬ StrangeAssignment apis c

/-! ## Specification: the rules -/

/-- Anyone can call it. -/
def Usable (s : SpecialMemberFound) : Prop := s = .implicit ∨ s = .explicit .pub

/-- A derived class can call it. -/
def UsableInDerived (s : SpecialMemberFound) : Prop :=
  s = .implicit ∨ s = .explicit .pub ∨ s = .explicit .prot

/-- All bases satisfy the first condition and all fields the second. -/
def Components (apis : List FnPre1Api) (found : AMap QName ItemsFound) (a : PodAnalysis)
    (base field : Members → Prop) : Prop :=
  (∀ b ∈ a.bases, ∀ m, HasMembers apis found b m → base m) ∧
  (∀ f ∈ a.fieldInfo, ∀ m, FieldMembers apis found f m → field m)

/-- The member exists implicitly exactly under the condition, and otherwise is as declared. -/
def Decided (cond : Prop) (decls : List FuncToConvert) (s : SpecialMemberFound) : Prop :=
  (cond ∧ s = .implicit) ∨ (¬ cond ∧ s = asDeclared decls)

/-- The rules for a class all of whose bases and fields are understood. -/
structure FullRules (apis : List FnPre1Api) (found : AMap QName ItemsFound) (c : QName)
    (d : StructDetails) (a : PodAnalysis) (m : Members) : Prop where
  /-- A default constructor exists implicitly if no constructor is declared, and all bases and fields
  can be default constructed and destroyed. -/
  dflt : Decided
    ((∀ k ∈ [MemberKind.defaultCtor, .copyCtor, .moveCtor, .otherCtor], declarations c k apis = []) ∧
      d.hasRvalueReferenceFields = false ∧
      Components apis found a (fun m => UsableInDerived m.dtor ∧ UsableInDerived m.dflt)
        (fun m => Usable m.dtor ∧ Usable m.dflt))
    (declarations c .defaultCtor apis) m.dflt
  /-- A destructor exists implicitly if none is declared, and all bases and fields can be destroyed. -/
  dtor : Decided
    (declarations c .destructor apis = [] ∧
      Components apis found a (fun m => UsableInDerived m.dtor) (fun m => Usable m.dtor))
    (declarations c .destructor apis) m.dtor
  /-- A copy constructor exists implicitly if neither a copy nor a move constructor is declared, and all
  bases and fields can be copied and destroyed. -/
  copy : Decided
    ((∀ k ∈ [MemberKind.copyCtor, .moveCtor], declarations c k apis = []) ∧
      d.hasRvalueReferenceFields = false ∧
      Components apis found a (fun m => UsableInDerived m.dtor ∧ UsableInDerived m.copy)
        (fun m => Usable m.dtor ∧ Usable m.copy))
    (declarations c .copyCtor apis) m.copy
  /-- A move constructor exists implicitly if no move or copy constructor, assignment operator or
  destructor is declared, all bases can be moved and destroyed, and all fields can be moved. -/
  move : Decided
    ((∀ k ∈ [MemberKind.moveCtor, .copyCtor, .assignment, .destructor], declarations c k apis = []) ∧
      Components apis found a (fun m => UsableInDerived m.dtor ∧ UsableInDerived m.move)
        (fun m => Usable m.move))
    (declarations c .moveCtor apis) m.move

/-- What is recorded of a class not all of whose bases and fields are understood: what it declares,
except that it is assumed to have a destructor. -/
structure DeclaredOnly (apis : List FnPre1Api) (c : QName) (m : Members) : Prop where
  dflt : m.dflt = asDeclared (declarations c .defaultCtor apis)
  dtor : (declarations c .destructor apis = [] ∧ m.dtor = .implicit) ∨
    (∃ f g l, declarations c .destructor apis = f :: g :: l ∧ m.dtor = .explicit .pub) ∨
    ((declarations c .destructor apis).length = 1 ∧
      m.dtor = asDeclared (declarations c .destructor apis))
  copy : m.copy = asDeclared (declarations c .copyCtor apis)
  move : m.move = asDeclared (declarations c .moveCtor apis)

/-! ## Declarations -/

/-- The kinds under which the code files declarations. -/
def MemberKind.explicitKind : MemberKind → ExplicitKind
  | .defaultCtor => .defaultConstructor
  | .copyCtor => .constCopy
  | .moveCtor => .moveConstructor
  | .otherCtor => .otherConstructor
  | .destructor => .destructor
  | .assignment => .moveAssign

/-- What several declarations of the same kind amount to. -/
def foldDecls : Option ExplicitFound → List FuncToConvert → Option ExplicitFound
  | o, [] => o
  | none, f :: l =>
    foldDecls (some (if f.isDeleted = some .deleted then .deleted else .userDefined f.cppVis)) l
  | some _, _ :: l => foldDecls (some .multiple) l

/-- The functions filed under that key. -/
def filed (c : QName) (k : ExplicitKind) : List FnPre1Api → List FuncToConvert
  | [] => []
  | a :: l =>
    match contribution a with
    | .explicit c' k' f => if c' = c ∧ k' = k then f :: filed c k l else filed c k l
    | _ => filed c k l

/-- One step of `find_explicit_items`. -/
def explicitStep (st : Option (Explicits × List QName)) (a : FnPre1Api) : Option (Explicits × List QName) :=
  st.bind fun (m, u) =>
    match contribution a with
    | .explicit ty k f => some (mergeFun m ty k f, u)
    | .unknown ty => some (m, setInsert u ty)
    | .nothing => some (m, u)
    | .panic => none

theorem findExplicitItems_eq (apis : List FnPre1Api) :
    findExplicitItems apis = apis.foldl explicitStep (some ([], [])) := rfl

theorem mergeFun_get (m : Explicits) (c c' : QName) (k k' : ExplicitKind) (f : FuncToConvert) :
    AMap.get? (mergeFun m c k f) (c', k') =
      if c = c' ∧ k = k' then foldDecls (m.get? (c, k)) [f] else m.get? (c', k') := by
  unfold mergeFun
  cases h : m.get? (c, k) with
  | none =>
    simp only [AMap.get?_insert, Prod.mk.injEq, foldDecls]
  | some v =>
    simp only [AMap.get?_insert, Prod.mk.injEq, foldDecls]

theorem foldl_explicitStep_none (l : List FnPre1Api) : l.foldl explicitStep none = none := by
  induction l with
  | nil => rfl
  | cons a l ih => exact ih

theorem foldDecls_append (o : Option ExplicitFound) (l l' : List FuncToConvert) :
    foldDecls o (l ++ l') = foldDecls (foldDecls o l) l' := by
  induction l generalizing o with
  | nil => cases o <;> cases l' <;> rfl
  | cons f l ih => cases o <;> exact ih _

theorem explicit_foldl_spec (l : List FnPre1Api) (m : Explicits) (u : List QName) :
    (l.foldl explicitStep (some (m, u)) = none ↔ ∃ a ∈ l, contribution a = .panic) ∧
    ∀ m' u', l.foldl explicitStep (some (m, u)) = some (m', u') →
      (∀ c k, AMap.get? m' (c, k) = foldDecls (m.get? (c, k)) (filed c k l)) ∧
      ∀ c, c ∈ u' ↔ c ∈ u ∨ ∃ a ∈ l, contribution a = .unknown c := by
  induction l generalizing m u with
  | nil =>
    refine ⟨by simp, ?_⟩
    intro m' u' h
    cases h
    refine ⟨fun c k => ?_, by simp⟩
    simp only [filed]
    cases m.get? (c, k) <;> rfl
  | cons a l ih =>
    rw [List.foldl_cons]
    cases hc : contribution a with
    | panic =>
      have : explicitStep (some (m, u)) a = none := by simp [explicitStep, hc]
      rw [this, foldl_explicitStep_none]
      exact ⟨by simp [hc], by simp⟩
    | nothing =>
      have : explicitStep (some (m, u)) a = some (m, u) := by simp [explicitStep, hc]
      rw [this]
      refine ⟨by simp [(ih m u).1, hc], ?_⟩
      intro m' u' h
      obtain ⟨h1, h2⟩ := (ih m u).2 m' u' h
      exact ⟨fun c k => by simp only [filed, hc]; exact h1 c k, fun c => by simp [h2, hc]⟩
    | unknown ty =>
      have : explicitStep (some (m, u)) a = some (m, setInsert u ty) := by simp [explicitStep, hc]
      rw [this]
      refine ⟨by simp [(ih m (setInsert u ty)).1, hc], ?_⟩
      intro m' u' h
      obtain ⟨h1, h2⟩ := (ih m _).2 m' u' h
      refine ⟨fun c k => by simp only [filed, hc]; exact h1 c k, fun c => ?_⟩
      rw [h2, abs_mem_setInsert]
      simp only [List.mem_cons, exists_eq_or_imp, hc, Contribution.unknown.injEq]
      rw [or_assoc, eq_comm]
    | explicit ty k f =>
      have : explicitStep (some (m, u)) a = some (mergeFun m ty k f, u) := by simp [explicitStep, hc]
      rw [this]
      refine ⟨by simp [(ih (mergeFun m ty k f) u).1, hc], ?_⟩
      intro m' u' h
      obtain ⟨h1, h2⟩ := (ih _ u).2 m' u' h
      refine ⟨fun c' k' => ?_, fun c => by simp [h2, hc]⟩
      rw [h1, mergeFun_get]
      simp only [filed, hc]
      by_cases e : ty = c' ∧ k = k'
      · obtain ⟨rfl, rfl⟩ := e
        simp only [and_self, if_true]
        rw [← foldDecls_append]; rfl
      · simp only [e, if_false]

theorem contribution_filed (a : FnPre1Api) (c : QName) (k : MemberKind) (hk : k ≠ .assignment)
    (f : FuncToConvert) :
    contribution a = .explicit c k.explicitKind f ↔
      ∃ n an, a = .function n f an ∧ memberOf f an = some (c, k) := by
  constructor
  · intro h
    unfold contribution at h
    split at h
    · rename_i n g an
      refine ⟨n, an, ?_⟩
      unfold memberOf
      split at h
      · rename_i mk ty hm
        split at h
        · split at h
          · split at h
            · cases k <;> simp_all [MemberKind.explicitKind]
            · split at h
              · cases h
              · split at h <;> cases k <;> simp_all [MemberKind.explicitKind]
          · cases h
        · rename_i hsp
          split at h <;> cases k <;> simp_all [MemberKind.explicitKind]
      · rename_i tk ty r u hm
        split at h <;> cases k <;> simp_all [MemberKind.explicitKind]
      · cases h
    · cases h
  · rintro ⟨n, an, rfl, h⟩
    unfold memberOf at h
    unfold contribution
    simp only
    split at h
    · rename_i mk ty hm
      simp only [hm]
      split at h
      · cases h; exact absurd rfl hk
      · rename_i hsp
        simp only [hsp, if_false]
        split at h
        · rename_i he; cases h; subst he; rfl
        · split at h
          · rename_i he; cases h; subst he; rfl
          · cases h
    · rename_i ty r u hm; simp only [hm]; cases h; rfl
    · rename_i ty r u hm; simp only [hm]; cases h; rfl
    · rename_i ty r u hm; simp only [hm]; cases h; rfl
    · cases h

theorem filed_eq_declarations (c : QName) (k : MemberKind) (hk : k ≠ .assignment) (l : List FnPre1Api) :
    filed c k.explicitKind l = declarations c k l := by
  induction l with
  | nil => rfl
  | cons a l ih =>
    by_cases h : ∃ n f an, a = .function n f an ∧ memberOf f an = some (c, k)
    · obtain ⟨n, f, an, rfl, hm⟩ := h
      have := (contribution_filed (.function n f an) c k hk f).2 ⟨n, an, rfl, hm⟩
      simp only [filed, this, and_self, if_true, declarations, hm, ih]
    · have h1 : filed c k.explicitKind (a :: l) = filed c k.explicitKind l := by
        rw [filed]
        split
        · rename_i c' k' f hc
          split
          · rename_i e
            obtain ⟨rfl, rfl⟩ := e
            obtain ⟨n, an, e, hm⟩ := (contribution_filed a _ k hk f).1 hc
            exact absurd ⟨n, f, an, e, hm⟩ h
          · rfl
        · rfl
      rw [h1, ih]
      cases a with
      | function n f an =>
        have : memberOf f an ≠ some (c, k) := fun hm => h ⟨n, f, an, rfl, hm⟩
        simp only [declarations, this, if_false]
      | _ => rfl

theorem filed_nonConstCopy (c : QName) (l : List FnPre1Api) : filed c .nonConstCopy l = [] := by
  induction l with
  | nil => rfl
  | cons a l ih =>
    unfold filed
    split
    · rename_i c' k' f hc
      split
      · rename_i e
        obtain ⟨rfl, rfl⟩ := e
        exfalso
        unfold contribution at hc
        repeat' (split at hc)
        all_goals first | (cases hc; done) | skip
      · exact ih
    · exact ih

/-- An understood assignment operator of the class. -/
def KnownAssignment (apis : List FnPre1Api) (c : QName) : Prop :=
  ∃ n f a, Api.function n f a ∈ apis ∧ memberOf f a = some (c, .assignment) ∧
    (a.ignoreReason = none ∨ (a.ignoreReason.map (·.err)) = some .assignmentOperator)

theorem memberOf_assignment_iff (f : FuncToConvert) (a : FnAnalysis) (c : QName) :
    memberOf f a = some (c, .assignment) ↔
      (∃ k, a.kind = .method k c) ∧ f.specialMember = some .assignmentOperator := by
  unfold memberOf
  constructor
  · intro h
    split at h
    · rename_i k c' hk
      split at h
      · rename_i hs; cases h; exact ⟨⟨k, hk⟩, hs⟩
      · split at h
        · cases h
        · split at h <;> cases h
    all_goals cases h
  · rintro ⟨⟨k, hk⟩, hs⟩
    simp [hk, hs]

theorem contribution_unknown_iff (a : FnPre1Api) (c : QName) :
    contribution a = .unknown c ↔
      ∃ n f an e, a = .function n f an ∧ memberOf f an = some (c, .assignment) ∧
        an.ignoreReason = some e ∧ e.err ≠ .assignmentOperator := by
  constructor
  · intro h
    unfold contribution at h
    split at h
    · rename_i n f an
      split at h
      · rename_i mk ty hm
        split at h
        · rename_i hs
          split at h
          · split at h
            · cases h
            · split at h
              · cases h
              · split at h <;> cases h
          · rename_i hr
            cases h
            cases he : an.ignoreReason with
            | none => simp [he] at hr
            | some e =>
              refine ⟨n, f, an, e, rfl, (memberOf_assignment_iff _ _ _).2 ⟨⟨_, hm⟩, hs⟩, he, ?_⟩
              intro h; simp [he, h] at hr
        · split at h <;> cases h
      · split at h <;> cases h
      · cases h
    · cases h
  · rintro ⟨n, f, an, e, rfl, hm, hi, he⟩
    obtain ⟨⟨k, hk⟩, hs⟩ := (memberOf_assignment_iff _ _ _).1 hm
    simp [contribution, hk, hs, hi, he]

theorem contribution_assignment_iff (a : FnPre1Api) (c : QName) (hp : contribution a ≠ .panic) :
    (∃ k f, contribution a = .explicit c k f ∧
      (k = .constCopyAssign ∨ k = .nonConstCopyAssign ∨ k = .moveAssign)) ↔
    ∃ n f an, a = .function n f an ∧ memberOf f an = some (c, .assignment) ∧
      (an.ignoreReason = none ∨ (an.ignoreReason.map (·.err)) = some .assignmentOperator) := by
  constructor
  · rintro ⟨k, f, h, hk⟩
    unfold contribution at h
    split at h
    · rename_i n g an
      split at h
      · rename_i mk ty hm
        split at h
        · rename_i hs
          split at h
          · rename_i hr
            have : ty = c := by
              split at h
              · cases h; rfl
              · split at h
                · cases h
                · split at h <;> cases h <;> rfl
            subst this
            exact ⟨n, g, an, rfl, (memberOf_assignment_iff _ _ _).2 ⟨⟨_, hm⟩, hs⟩, hr⟩
          · cases h
        · split at h <;> cases h <;> simp at hk
      · split at h <;> cases h <;> simp at hk
      · cases h
    · cases h
  · rintro ⟨n, f, an, rfl, hm, hi⟩
    obtain ⟨⟨k, hk⟩, hs⟩ := (memberOf_assignment_iff _ _ _).1 hm
    simp only [contribution, hk, hs, if_true, hi] at hp ⊢
    split
    · exact ⟨_, _, rfl, by simp⟩
    · rename_i hr
      simp only [hr] at hp
      split
      · rename_i h; simp [h] at hp
      · rename_i p r h
        simp only [h] at hp
        split
        · rename_i h2; simp [h2] at hp
        · exact ⟨_, _, rfl, by simp⟩
        · exact ⟨_, _, rfl, by simp⟩

theorem filed_ne_nil_iff (c : QName) (k : ExplicitKind) (l : List FnPre1Api) :
    filed c k l ≠ [] ↔ ∃ a ∈ l, ∃ f, contribution a = .explicit c k f := by
  induction l with
  | nil => simp [filed]
  | cons a l ih =>
    unfold filed
    split
    · rename_i c' k' f hc
      split
      · rename_i e
        obtain ⟨rfl, rfl⟩ := e
        simp [hc]
      · rename_i e
        rw [ih]
        constructor
        · rintro ⟨b, hb, g, hg⟩; exact ⟨b, by simp [hb], g, hg⟩
        · rintro ⟨b, hb, g, hg⟩
          rcases List.mem_cons.1 hb with rfl | hb
          · rw [hc] at hg; cases hg; exact absurd ⟨rfl, rfl⟩ e
          · exact ⟨b, hb, g, hg⟩
    · rename_i hne
      rw [ih]
      constructor
      · rintro ⟨b, hb, g, hg⟩; exact ⟨b, by simp [hb], g, hg⟩
      · rintro ⟨b, hb, g, hg⟩
        rcases List.mem_cons.1 hb with rfl | hb
        · exact absurd hg (hne _ _ _)
        · exact ⟨b, hb, g, hg⟩

theorem foldDecls_isSome (l : List FuncToConvert) : (foldDecls none l).isSome = true ↔ l ≠ [] := by
  have h : ∀ (l : List FuncToConvert) v, (foldDecls (some v) l).isSome = true := by
    intro l
    induction l with
    | nil => intro v; rfl
    | cons f l ih => intro v; exact ih _
  cases l with
  | nil => simp [foldDecls]
  | cons f l =>
    simp only [ne_eq, reduceCtorEq, not_false_eq_true, iff_true]
    exact h l _

theorem foldDecls_eq (l : List FuncToConvert) :
    foldDecls none l = match l with
      | [] => none
      | [f] => some (if f.isDeleted = some .deleted then .deleted else .userDefined f.cppVis)
      | _ => some .multiple := by
  have h : ∀ (l : List FuncToConvert) , foldDecls (some .multiple) l = some .multiple := by
    intro l
    induction l with
    | nil => rfl
    | cons f l ih => exact ih
  match l with
  | [] => rfl
  | [f] => rfl
  | f :: g :: l => exact h l

theorem declarations_ne_nil_iff (c : QName) (k : MemberKind) (l : List FnPre1Api) :
    declarations c k l ≠ [] ↔ ∃ n f a, Api.function n f a ∈ l ∧ memberOf f a = some (c, k) := by
  induction l with
  | nil => simp [declarations]
  | cons a l ih =>
    cases a with
    | function n f an =>
      simp only [declarations]
      split
      · rename_i h
        simp only [ne_eq, reduceCtorEq, not_false_eq_true, true_iff]
        exact ⟨n, f, an, .head _, h⟩
      · rename_i h
        rw [ih]
        constructor
        · rintro ⟨n', f', an', hm, e⟩; exact ⟨n', f', an', .tail _ hm, e⟩
        · rintro ⟨n', f', an', hm, e⟩
          rcases List.mem_cons.1 hm with h' | hm
          · cases h'; exact absurd e h
          · exact ⟨n', f', an', hm, e⟩
    | _ =>
      simp only [declarations]
      rw [ih]
      constructor
      · rintro ⟨n', f', an', hm, e⟩; exact ⟨n', f', an', .tail _ hm, e⟩
      · rintro ⟨n', f', an', hm, e⟩
        rcases List.mem_cons.1 hm with h' | hm
        · cases h'
        · exact ⟨n', f', an', hm, e⟩

/-- What the collected declarations say. -/
structure ExplicitsSpec (apis : List FnPre1Api) (m : Explicits) (u : List QName) : Prop where
  kinds : ∀ c (k : MemberKind), k ≠ .assignment →
    AMap.get? m (c, k.explicitKind) = foldDecls none (declarations c k apis)
  nonConst : ∀ c, AMap.get? m (c, .nonConstCopy) = none
  assign : ∀ c, ((AMap.get? m (c, .constCopyAssign)).isSome ∨ (AMap.get? m (c, .nonConstCopyAssign)).isSome ∨
    (AMap.get? m (c, .moveAssign)).isSome) ↔ KnownAssignment apis c
  unknown : ∀ c, c ∈ u ↔ StrangeAssignment apis c

theorem findExplicitItems_spec (apis : List FnPre1Api) :
    (findExplicitItems apis = none ↔ ∃ a ∈ apis, contribution a = .panic) ∧
    ∀ m u, findExplicitItems apis = some (m, u) → ExplicitsSpec apis m u := by
  rw [findExplicitItems_eq]
  obtain ⟨h0, h⟩ := explicit_foldl_spec apis [] []
  refine ⟨h0, fun m u hm => ?_⟩
  obtain ⟨h1, h2⟩ := h m u hm
  have hnp : ∀ a ∈ apis, contribution a ≠ .panic := by
    intro a ha hp
    rw [h0.2 ⟨a, ha, hp⟩] at hm; cases hm
  refine ⟨?_, ?_, ?_, ?_⟩
  · intro c k hk
    rw [h1, filed_eq_declarations c k hk]; rfl
  · intro c; rw [h1, filed_nonConstCopy]; rfl
  · intro c
    have e : ∀ k, (AMap.get? m (c, k)).isSome = true ↔ filed c k apis ≠ [] := by
      intro k; rw [h1]; exact foldDecls_isSome _
    simp only [e, filed_ne_nil_iff]
    constructor
    · rintro (⟨a, ha, f, hf⟩ | ⟨a, ha, f, hf⟩ | ⟨a, ha, f, hf⟩) <;>
      · obtain ⟨n, f, an, rfl, hm, hi⟩ := (contribution_assignment_iff a c (hnp a ha)).1 ⟨_, f, hf, by simp⟩
        exact ⟨n, f, an, ha, hm, hi⟩
    · rintro ⟨n, f, an, ha, hm, hi⟩
      obtain ⟨k, f', hf, hk | hk | hk⟩ :=
        (contribution_assignment_iff _ c (hnp _ ha)).2 ⟨n, f, an, rfl, hm, hi⟩
      · subst hk; exact .inl ⟨_, ha, _, hf⟩
      · subst hk; exact .inr (.inl ⟨_, ha, _, hf⟩)
      · subst hk; exact .inr (.inr ⟨_, ha, _, hf⟩)
  · intro c
    rw [h2]
    simp only [List.not_mem_nil, false_or]
    constructor
    · rintro ⟨a, ha, hc⟩
      obtain ⟨n, f, an, e, rfl, h⟩ := (contribution_unknown_iff a c).1 hc
      exact ⟨n, f, an, e, ha, h⟩
    · rintro ⟨n, f, an, e, ha, h⟩
      exact ⟨_, ha, (contribution_unknown_iff _ c).2 ⟨n, f, an, e, rfl, h⟩⟩

/-! ## The loop over the classes -/

theorem classStep_none (ex : Explicits) (un en : List QName) (a : FnPre1Api) :
    classStep ex un en none a = none := by
  unfold classStep
  split
  · split <;> rfl
  · rfl

theorem classLoop_none (ex : Explicits) (un en : List QName) (l : List FnPre1Api) :
    l.foldl (classStep ex un en) none = none := by
  induction l with
  | nil => rfl
  | cons a l ih => rw [List.foldl_cons, classStep_none]; exact ih

theorem classStep_some {ex : Explicits} {un en : List QName} {m m' : AMap QName ItemsFound}
    {a : FnPre1Api} (h : classStep ex un en (some m) a = some m') :
    (∃ n d an i, a = .struct n d an ∧ analysed an = true ∧ classItems ex un en m n d an = some i ∧
      m.get? n.name = none ∧ m' = m.insert n.name i) ∨
    ((∀ n d an, a = .struct n d an → analysed an = false) ∧ m' = m) := by
  unfold classStep at h
  split at h
  · rename_i n d an
    split at h
    · rename_i ha
      left
      simp only [Option.bind_some] at h
      cases hc : classItems ex un en m n d an with
      | none => rw [hc] at h; cases h
      | some i =>
        rw [hc] at h
        simp only [Option.bind_some] at h
        split at h
        · cases h
        · rename_i hm
          cases h
          exact ⟨n, d, an, i, rfl, ha, hc, by simpa using hm, rfl⟩
    · rename_i ha
      cases h
      right
      refine ⟨?_, rfl⟩
      intro n' d' an' e
      cases e
      simpa using ha
  · rename_i hne
    cases h
    exact .inr ⟨fun n d an e => absurd e (hne n d an), rfl⟩

theorem classLoop_get {ex : Explicits} {un en : List QName} (l : List FnPre1Api)
    {m m' : AMap QName ItemsFound} (h : l.foldl (classStep ex un en) (some m) = some m') (q : QName) :
    ((m'.get? q).isSome = true ↔ (m.get? q).isSome = true ∨
      ∃ n d an, Api.struct n d an ∈ l ∧ analysed an = true ∧ n.name = q) ∧
    ((∀ a ∈ l, a.name ≠ q) → m'.get? q = m.get? q) := by
  induction l generalizing m with
  | nil => cases h; simp
  | cons a l ih =>
    rw [List.foldl_cons] at h
    cases hs : classStep ex un en (some m) a with
    | none => rw [hs, classLoop_none] at h; cases h
    | some mx =>
      rw [hs] at h
      obtain ⟨h1, h2⟩ := ih h
      rcases classStep_some hs with ⟨n, d, an, i, rfl, ha, hc, hm, rfl⟩ | ⟨hne, rfl⟩
      · constructor
        · rw [h1, AMap.get?_insert]
          constructor
          · rintro (h | ⟨n', d', an', hm', h⟩)
            · split at h
              · rename_i e; exact .inr ⟨n, d, an, .head _, ha, e⟩
              · exact .inl h
            · exact .inr ⟨n', d', an', .tail _ hm', h⟩
          · rintro (h | ⟨n', d', an', hm', h, e⟩)
            · left; split
              · rfl
              · exact h
            · rcases List.mem_cons.1 hm' with e' | hm'
              · cases e'; simp [e]
              · exact .inr ⟨n', d', an', hm', h, e⟩
        · intro hq
          rw [h2 fun b hb => hq b (by simp [hb]), AMap.get?_insert, if_neg]
          exact hq (.struct n d an) (by simp)
      · constructor
        · rw [h1]
          constructor
          · rintro (h | ⟨n', d', an', hm', h⟩)
            · exact .inl h
            · exact .inr ⟨n', d', an', .tail _ hm', h⟩
          · rintro (h | ⟨n', d', an', hm', h, e⟩)
            · exact .inl h
            · rcases List.mem_cons.1 hm' with e' | hm'
              · rw [hne _ _ _ e'.symm] at h; cases h
              · exact .inr ⟨n', d', an', hm', h, e⟩
        · exact fun hq => h2 fun b hb => hq b (by simp [hb])

theorem mapWhile_congr {α β : Type} (f g : α → Option β) (l : List α) (h : ∀ a ∈ l, f a = g a) :
    mapWhile f l = mapWhile g l := by
  induction l with
  | nil => rfl
  | cons a l ih =>
    simp only [mapWhile, h a (by simp)]
    rw [ih fun b hb => h b (by simp [hb])]

theorem fieldItems_congr (f g : QName → Option ItemsFound) (n : ApiName) (fi : FieldInfo)
    (h : ∀ q, fi.ByValue → HoldsType fi.ty q → f q = g q) : fieldItems f n fi = fieldItems g n fi := by
  have key : ∀ segs, fi.ByValue → (∀ q, QName.ofTypePath segs = some q → HoldsType fi.ty q) →
      (QName.ofTypePath segs).map f = (QName.ofTypePath segs).map g := by
    intro segs hv ht
    cases hq : QName.ofTypePath segs with
    | none => rfl
    | some q => simp [h q hv (ht q hq)]
  unfold fieldItems
  split
  · rename_i hk
    split
    · rename_i segs a hty
      exact key segs (.inl hk) fun q hq => ⟨segs, a, .inl hty, hq⟩
    · rename_i segs a n hty
      exact key segs (.inl hk) fun q hq => ⟨segs, a, .inr ⟨n, hty⟩, hq⟩
    · rfl
  · rename_i id hk
    split
    · rename_i segs a hty
      exact key segs (.inr ⟨id, hk⟩) fun q hq => ⟨segs, a, .inl hty, hq⟩
    · rename_i segs a n hty
      exact key segs (.inr ⟨id, hk⟩) fun q hq => ⟨segs, a, .inr ⟨n, hty⟩, hq⟩
    · rfl
  · rfl

theorem fieldsItems_congr (f g : QName → Option ItemsFound) (n : ApiName) (l : List FieldInfo)
    (h : ∀ fi ∈ l, ∀ q, fi.ByValue → HoldsType fi.ty q → f q = g q) :
    fieldsItems f n l = fieldsItems g n l := by
  induction l with
  | nil => rfl
  | cons a l ih =>
    simp only [fieldsItems, fieldItems_congr f g n a (h a (by simp)),
      ih fun b hb => h b (by simp [hb])]

theorem classItems_congr (ex : Explicits) (un en : List QName) (m m' : AMap QName ItemsFound)
    (n : ApiName) (d : StructDetails) (a : PodAnalysis)
    (h : ∀ q, (q ∈ a.bases ∨ ∃ f ∈ a.fieldInfo, f.ByValue ∧ HoldsType f.ty q) → m.get? q = m'.get? q) :
    classItems ex un en m n d a = classItems ex un en m' n d a := by
  have hg : ∀ q, (q ∈ a.bases ∨ ∃ f ∈ a.fieldInfo, f.ByValue ∧ HoldsType f.ty q) →
      getItemsFound en n m q = getItemsFound en n m' q := by
    intro q hq
    unfold getItemsFound
    rw [h q hq]
  unfold classItems
  simp only
  rw [mapWhile_congr _ _ a.bases fun q hq => hg q (.inl hq),
    fieldsItems_congr _ _ n a.fieldInfo fun f hf q hv ht => hg q (.inr ⟨f, hf, hv, ht⟩)]

/-- The hypothesis that a class comes after the classes its fields hold: what is held is among the
recorded dependencies, if it is one of the classes. For fields held in arrays the recorded dependencies
do not see to that: see `array_member_order_false`. -/
def FieldsRecorded (apis : List FnPre1Api) : Prop :=
  ∀ n d a, Api.struct n d a ∈ apis → ∀ f ∈ a.fieldInfo, f.ByValue → ∀ q, HoldsType f.ty q →
    q ∈ a.fieldDefinitionDeps ∨ ∀ n' d' a', Api.struct n' d' a' ∈ apis → n'.name ≠ q

theorem classLoop_fixpoint (apis : List FnPre1Api) (hn : (apis.map (·.name)).Nodup)
    (hf : FieldsRecorded apis) (ex : Explicits) (un en : List QName) (out : List FnPre1Api)
    (hperm : out.Perm apis) (hord : DepOrdered Api.name FnPre1Api.fieldAndBaseDeps apis out)
    (found : AMap QName ItemsFound) (h : out.foldl (classStep ex un en) (some []) = some found)
    (n : ApiName) (d : StructDetails) (a : PodAnalysis) (hm : Api.struct n d a ∈ apis)
    (ha : analysed a = true) :
    ∃ i, found.get? n.name = some i ∧ classItems ex un en found n d a = some i := by
  obtain ⟨p, s, e⟩ := List.append_of_mem (hperm.symm.subset hm)
  rw [e, List.foldl_append, List.foldl_cons] at h
  have hnout : (out.map (·.name)).Nodup := (hperm.map _).nodup_iff.2 hn
  rw [e, List.map_append, List.map_cons, List.nodup_append, List.nodup_cons] at hnout
  cases hp : p.foldl (classStep ex un en) (some []) with
  | none => rw [hp, classStep_none, classLoop_none] at h; cases h
  | some mp =>
    rw [hp] at h
    cases hx : classStep ex un en (some mp) (.struct n d a) with
    | none => rw [hx, classLoop_none] at h; cases h
    | some mx =>
      rw [hx] at h
      rcases classStep_some hx with ⟨n', d', an', i, e', _, hc, hnone, rfl⟩ | ⟨hne, _⟩
      · cases e'
        have hlast : ∀ b ∈ s, b.name ≠ n.name := fun b hb he =>
          hnout.2.1.1 (List.mem_map.2 ⟨b, hb, he⟩)
        refine ⟨i, ?_, ?_⟩
        · rw [(classLoop_get s h n.name).2 hlast, AMap.get?_insert_self]
        · rw [← hc]
          refine (classItems_congr ex un en mp found n d a ?_).symm
          intro q hq
          -- the rest of the run does not change what is known of the classes needed here
          by_cases hstruct : ∃ n' d' a', Api.struct n' d' a' ∈ apis ∧ n'.name = q
          · obtain ⟨n', d', a', hm', hq'⟩ := hstruct
            have hdep : q ∈ FnPre1Api.fieldAndBaseDeps (.struct n d a) := by
              simp only [FnPre1Api.fieldAndBaseDeps, List.mem_append]
              rcases hq with hq | ⟨f, hfm, hv, ht⟩
              · exact .inr hq
              · rcases hf n d a hm f hfm hv q ht with h | h
                · exact .inl h
                · exact absurd hq' (h n' d' a' hm')
            obtain ⟨c, hcp, hce⟩ := hord p _ s e _ hm' (by
              rw [show (Api.struct n' d' a' : FnPre1Api).name = n'.name from rfl, hq']; exact hdep)
            have hce : c.name = q := hce.trans hq'
            have h1 : ∀ b ∈ s, b.name ≠ q := by
              intro b hb he
              exact hnout.2.2 q (List.mem_map.2 ⟨c, hcp, hce⟩) q
                (List.mem_cons_of_mem _ (List.mem_map.2 ⟨b, hb, he⟩)) rfl
            have h2 : n.name ≠ q := by
              intro he
              exact hnout.2.2 q (List.mem_map.2 ⟨c, hcp, hce⟩) q (by rw [← he]; exact .head _) rfl
            rw [(classLoop_get s h q).2 h1, AMap.get?_insert_of_ne _ _ h2]
          · have hnil : ∀ (l : List FnPre1Api) (m m' : AMap QName ItemsFound),
                (∀ b ∈ l, b ∈ apis) → l.foldl (classStep ex un en) (some m) = some m' →
                m.get? q = none → m'.get? q = none := by
              intro l m m' hl hr hmq
              have := (classLoop_get l hr q).1
              cases hg : m'.get? q with
              | none => rfl
              | some v =>
                rw [hg, hmq] at this
                simp only [Option.isSome_some, Option.isSome_none, Bool.false_eq_true, false_or,
                  true_iff] at this
                obtain ⟨n', d', a', hm', _, hq'⟩ := this
                exact absurd ⟨n', d', a', hl _ hm', hq'⟩ hstruct
            have hsub : ∀ b ∈ p, b ∈ apis := fun b hb => hperm.subset (by rw [e]; simp [hb])
            have hsub' : ∀ b ∈ s, b ∈ apis := fun b hb => hperm.subset (by rw [e]; simp [hb])
            have h1 : mp.get? q = none := hnil p [] mp hsub hp rfl
            have h2 : n.name ≠ q := fun he => hstruct ⟨n, d, a, hm, he⟩
            rw [h1, hnil s _ found hsub' h (by rw [AMap.get?_insert_of_ne _ _ h2, h1])]
      · rw [hne n d a rfl] at ha; cases ha

/-! ## Components -/

theorem mem_enumNames (apis : List FnPre1Api) (q : QName) :
    q ∈ enumNames apis ↔ ∃ n d, Api.enum n d ∈ apis ∧ n.name = q := by
  unfold enumNames
  rw [List.mem_filterMap]
  constructor
  · rintro ⟨a, ha, h⟩
    split at h
    · rename_i n d; cases h; exact ⟨n, d, ha, rfl⟩
    · cases h
  · rintro ⟨n, d, ha, rfl⟩; exact ⟨_, ha, rfl⟩

theorem getItemsFound_members (apis : List FnPre1Api) (found : AMap QName ItemsFound) (n : ApiName)
    (q : QName) :
    (∀ i, getItemsFound (enumNames apis) n found q = some i → HasMembers apis found q i.members) ∧
    (∀ m, HasMembers apis found q m →
      ∃ i, getItemsFound (enumNames apis) n found q = some i ∧ i.members = m) := by
  have hen := mem_enumNames apis q
  constructor
  · intro i h
    unfold getItemsFound at h
    split at h
    · rename_i he
      obtain ⟨n', d, hm, hq⟩ := hen.1 he
      cases h
      exact .enum n' d hm hq
    · rename_i he
      have hne : ∀ n d, Api.enum n d ∈ apis → n.name ≠ q := fun n d hm hq => he (hen.2 ⟨n, d, hm, hq⟩)
      split at h
      · rename_i d hd
        obtain ⟨mv, cp⟩ := d
        cases h
        have : (knownTypeItems (mv, cp)).members = knownMembers mv cp := rfl
        rw [this]
        exact .known hne hd
      · rename_i hd
        exact .cls hne hd h
  · intro m h
    unfold getItemsFound
    cases h with
    | enum n' d hm hq =>
      rw [if_pos (hen.2 ⟨n', d, hm, hq⟩)]
      exact ⟨_, rfl, rfl⟩
    | known hne hk =>
      rw [if_neg (fun he => by obtain ⟨n', d, hm, hq⟩ := hen.1 he; exact hne n' d hm hq), hk]
      exact ⟨_, rfl, rfl⟩
    | cls hne hk hi =>
      rw [if_neg (fun he => by obtain ⟨n', d, hm, hq⟩ := hen.1 he; exact hne n' d hm hq), hk]
      exact ⟨_, hi, rfl⟩

/-- No class is ever recorded as having a copy constructor which takes a non-const reference. -/
def NoNonConst (found : AMap QName ItemsFound) : Prop :=
  ∀ q i, found.get? q = some i → i.nonConstCopy = .notPresent

theorem getItemsFound_nonConst {en : List QName} {found : AMap QName ItemsFound} (hnc : NoNonConst found)
    {n : ApiName} {q : QName} {i : ItemsFound} (h : getItemsFound en n found q = some i) :
    i.nonConstCopy = .notPresent := by
  unfold getItemsFound at h
  split at h
  · cases h; rfl
  · split at h
    · cases h; rfl
    · exact hnc q i h

theorem mapWhile_mem {α β : Type} (f : α → Option β) (l : List α) (b : β) (h : b ∈ mapWhile f l) :
    ∃ a ∈ l, f a = some b := by
  induction l with
  | nil => cases h
  | cons a l ih =>
    unfold mapWhile at h
    split at h
    · rename_i c hc
      rcases List.mem_cons.1 h with rfl | h
      · exact ⟨a, by simp, hc⟩
      · obtain ⟨a', ha', h'⟩ := ih h
        exact ⟨a', by simp [ha'], h'⟩
    · cases h

theorem mapWhile_length {α β : Type} (f : α → Option β) (l : List α) :
    (mapWhile f l).length = l.length ↔ ∀ a ∈ l, (f a).isSome = true := by
  have hle : ∀ l : List α, (mapWhile f l).length ≤ l.length := by
    intro l
    induction l with
    | nil => simp [mapWhile]
    | cons a l ih =>
      unfold mapWhile; split
      · simpa using ih
      · simp
  induction l with
  | nil => simp [mapWhile]
  | cons a l ih =>
    unfold mapWhile
    split
    · rename_i c hc; simp [ih, hc]
    · rename_i hc; simp [hc]

theorem mapWhile_all {α β : Type} (f : α → Option β) (l : List α) (h : ∀ a ∈ l, (f a).isSome = true)
    {a : α} (ha : a ∈ l) {b : β} (hb : f a = some b) : b ∈ mapWhile f l := by
  induction l with
  | nil => cases ha
  | cons c l ih =>
    unfold mapWhile
    have hc := h c (by simp)
    split
    · rename_i d hd
      rcases List.mem_cons.1 ha with rfl | ha
      · rw [hd] at hb; cases hb; simp
      · exact List.mem_cons_of_mem _ (ih (fun x hx => h x (by simp [hx])) ha)
    · rename_i hd; rw [hd] at hc; cases hc

theorem fieldItems_members (apis : List FnPre1Api) (found : AMap QName ItemsFound) (n : ApiName)
    (f : FieldInfo) (o : Option ItemsFound)
    (h : fieldItems (getItemsFound (enumNames apis) n found) n f = some o) :
    (∀ i, o = some i → FieldMembers apis found f i.members) ∧
    (∀ m, FieldMembers apis found f m → ∃ i, o = some i ∧ i.members = m) := by
  have hval : ∀ segs g, f.ByValue → (f.ty = .path segs g ∨ ∃ n, f.ty = .array (.path segs g) n) →
      (QName.ofTypePath segs).map (getItemsFound (enumNames apis) n found) = some o →
      (∀ i, o = some i → FieldMembers apis found f i.members) ∧
      (∀ m, FieldMembers apis found f m → ∃ i, o = some i ∧ i.members = m) := by
    intro segs g hv hty hm
    cases hq : QName.ofTypePath segs with
    | none => rw [hq] at hm; cases hm
    | some q =>
      rw [hq] at hm
      simp only [Option.map_some, Option.some.injEq] at hm
      obtain ⟨h1, h2⟩ := getItemsFound_members apis found n q
      rw [hm] at h1 h2
      refine ⟨fun i hi => .value hv ⟨segs, g, hty, hq⟩ (h1 i hi), ?_⟩
      intro m hfm
      cases hfm with
      | value _ ht hmem =>
        obtain ⟨segs', g', hty', hq'⟩ := ht
        have : segs' = segs := by
          rcases hty with hty | ⟨k, hty⟩ <;> rcases hty' with hty' | ⟨k', hty'⟩ <;>
            rw [hty] at hty' <;> cases hty' <;> rfl
        subst this
        rw [hq] at hq'; cases hq'
        exact h2 m hmem
      | scalar hnv => exact absurd hv hnv
  have hother : f.ByValue → (∀ segs g, f.ty ≠ .path segs g) →
      (∀ segs g n, f.ty ≠ .array (.path segs g) n) → some none = some o →
      (∀ i, o = some i → FieldMembers apis found f i.members) ∧
      (∀ m, FieldMembers apis found f m → ∃ i, o = some i ∧ i.members = m) := by
    intro hv h1 h2 ho
    cases ho
    refine ⟨fun i hi => (by cases hi), ?_⟩
    intro m hfm
    cases hfm with
    | value _ ht _ =>
      obtain ⟨segs, g, hty | ⟨k, hty⟩, _⟩ := ht
      · exact absurd hty (h1 _ _)
      · exact absurd hty (h2 _ _ _)
    | scalar hnv => exact absurd hv hnv
  unfold fieldItems at h
  split at h
  · rename_i hk
    split at h
    · rename_i segs g hty; exact hval segs g (.inl hk) (.inl hty) h
    · rename_i segs g k hty; exact hval segs g (.inl hk) (.inr ⟨k, hty⟩) h
    · rename_i h1 h2
      exact hother (.inl hk) (fun _ _ e => h1 _ _ e) (fun _ _ _ e => h2 _ _ _ e) h
  · rename_i id hk
    split at h
    · rename_i segs g hty; exact hval segs g (.inr ⟨id, hk⟩) (.inl hty) h
    · rename_i segs g k hty; exact hval segs g (.inr ⟨id, hk⟩) (.inr ⟨k, hty⟩) h
    · rename_i h1 h2
      exact hother (.inr ⟨id, hk⟩) (fun _ _ e => h1 _ _ e) (fun _ _ _ e => h2 _ _ _ e) h
  · rename_i hk1 hk2
    have hnv : ¬ f.ByValue := by
      rintro (h | ⟨id, h⟩)
      · exact hk1 h
      · exact hk2 id h
    cases h
    refine ⟨fun i hi => by cases hi; exact .scalar hnv, ?_⟩
    intro m hfm
    cases hfm with
    | value hv _ _ => exact absurd hv hnv
    | scalar _ => exact ⟨_, rfl, rfl⟩

theorem fieldItems_nonConst {en : List QName} {found : AMap QName ItemsFound} (hnc : NoNonConst found)
    {n : ApiName} {f : FieldInfo} {i : ItemsFound}
    (h : fieldItems (getItemsFound en n found) n f = some (some i)) : i.nonConstCopy = .notPresent := by
  have key : ∀ segs, (QName.ofTypePath segs).map (getItemsFound en n found) = some (some i) →
      i.nonConstCopy = .notPresent := by
    intro segs h
    cases hq : QName.ofTypePath segs with
    | none => rw [hq] at h; cases h
    | some q =>
      rw [hq] at h
      simp only [Option.map_some, Option.some.injEq] at h
      exact getItemsFound_nonConst hnc h
  unfold fieldItems at h
  split at h
  · split at h
    · exact key _ h
    · exact key _ h
    · cases h
  · split at h
    · exact key _ h
    · exact key _ h
    · cases h
  · cases h; rfl

theorem fieldsItems_spec (get : QName → Option ItemsFound) (n : ApiName) (l : List FieldInfo)
    (r : List ItemsFound) (h : fieldsItems get n l = some r) :
    (∀ f ∈ l, ∃ o, fieldItems get n f = some o) ∧
    (∀ i, i ∈ r ↔ ∃ f ∈ l, fieldItems get n f = some (some i)) ∧
    (r.length = l.length ↔ ∀ f ∈ l, ∃ i, fieldItems get n f = some (some i)) := by
  have hle : ∀ (l : List FieldInfo) r, fieldsItems get n l = some r → r.length ≤ l.length := by
    intro l
    induction l with
    | nil => intro r h; cases h; simp
    | cons f l ih =>
      intro r h
      unfold fieldsItems at h
      cases ho : fieldItems get n f with
      | none => rw [ho] at h; cases h
      | some o =>
        rw [ho] at h
        simp only [Option.bind_some] at h
        cases hr : fieldsItems get n l with
        | none => rw [hr] at h; cases h
        | some r' =>
          rw [hr] at h
          have := ih r' hr
          cases o <;> cases h <;> simp <;> omega
  induction l generalizing r with
  | nil => cases h; simp
  | cons f l ih =>
    unfold fieldsItems at h
    cases ho : fieldItems get n f with
    | none => rw [ho] at h; cases h
    | some o =>
      rw [ho] at h
      simp only [Option.bind_some] at h
      cases hr : fieldsItems get n l with
      | none => rw [hr] at h; cases h
      | some r' =>
        rw [hr] at h
        obtain ⟨h1, h2, h3⟩ := ih r' hr
        have hlen := hle l r' hr
        cases o with
        | none =>
          cases h
          refine ⟨by simpa [ho] using h1, fun i => by simp [h2, ho], ?_⟩
          simp only [List.length_cons, List.mem_cons, forall_eq_or_imp, ho]
          constructor
          · intro h; omega
          · rintro ⟨⟨i, hi⟩, _⟩; cases hi
        | some i =>
          cases h
          refine ⟨by simpa [ho] using h1, fun j => by simp [h2, ho, eq_comm], ?_⟩
          simp [ho, h3]

theorem fieldsItems_none_iff (get : QName → Option ItemsFound) (n : ApiName) (l : List FieldInfo) :
    fieldsItems get n l = none ↔ ∃ f ∈ l, fieldItems get n f = none := by
  induction l with
  | nil => simp [fieldsItems]
  | cons f l ih =>
    unfold fieldsItems
    cases ho : fieldItems get n f with
    | none => simp [ho]
    | some o =>
      cases hr : fieldsItems get n l with
      | none => simpa [ho] using ih.1 hr
      | some r =>
        simp only [Option.bind_some, Option.map_some, reduceCtorEq, List.mem_cons, false_iff]
        rintro ⟨g, hg | hg, hn⟩
        · rw [hg, ho] at hn; cases hn
        · have := ih.2 ⟨g, hg, hn⟩
          rw [hr] at this; cases this

/-! ## Decisions -/

theorem callableAny_iff (s : SpecialMemberFound) : s.callableAny = true ↔ Usable s := by
  unfold Usable
  cases s with
  | explicit v => cases v <;> simp [SpecialMemberFound.callableAny]
  | _ => simp [SpecialMemberFound.callableAny]

theorem callableSubclass_iff (s : SpecialMemberFound) : s.callableSubclass = true ↔ UsableInDerived s := by
  unfold UsableInDerived
  cases s with
  | explicit v => cases v <;> simp [SpecialMemberFound.callableSubclass]
  | _ => simp [SpecialMemberFound.callableSubclass]

theorem explicitState_foldDecls (l : List FuncToConvert) : explicitState (foldDecls none l) = asDeclared l := by
  rw [foldDecls_eq]
  match l with
  | [] => rfl
  | [f] => simp only [asDeclared]; split <;> rfl
  | f :: g :: l => rfl

theorem foldDecls_isNone (l : List FuncToConvert) : (foldDecls none l).isNone = true ↔ l = [] := by
  have := foldDecls_isSome l
  cases h : foldDecls none l <;> simp_all

theorem decided_of {cond : Prop} {b : Bool} (h : b = true ↔ cond) {decls : List FuncToConvert}
    {s : SpecialMemberFound} (hs : s = if b then .implicit else asDeclared decls) : Decided cond decls s := by
  unfold Decided
  by_cases hb : b = true
  · exact .inl ⟨h.1 hb, by simpa [hb] using hs⟩
  · exact .inr ⟨fun hc => hb (h.2 hc), by simpa [hb] using hs⟩

/-- The entry of one class is what the rules say. -/
theorem classItems_spec (apis : List FnPre1Api) (ex : Explicits) (un : List QName)
    (hex : ExplicitsSpec apis ex un) (found : AMap QName ItemsFound) (hnc : NoNonConst found)
    (n : ApiName) (d : StructDetails) (a : PodAnalysis) (i : ItemsFound)
    (h : classItems ex un (enumNames apis) found n d a = some i) :
    i.name = some n ∧ i.nonConstCopy = .notPresent ∧
    (Understood apis found n.name a → FullRules apis found n.name d a i.members) ∧
    (¬ Understood apis found n.name a → DeclaredOnly apis n.name i.members) := by
  unfold classItems at h
  simp only at h
  cases hfi : fieldsItems (getItemsFound (enumNames apis) n found) n a.fieldInfo with
  | none => rw [hfi] at h; cases h
  | some fields =>
    rw [hfi] at h
    simp only [Option.map_some, Option.some.injEq] at h
    obtain ⟨hf1, hf2, hf3⟩ := fieldsItems_spec _ _ _ _ hfi
    have hbase : (mapWhile (getItemsFound (enumNames apis) n found) a.bases).length = a.bases.length ↔
        ∀ b ∈ a.bases, ∃ m, HasMembers apis found b m := by
      rw [mapWhile_length]
      refine forall_congr' fun b => imp_congr_right fun _ => ?_
      rw [Option.isSome_iff_exists]
      constructor
      · rintro ⟨j, hj⟩; exact ⟨_, (getItemsFound_members apis found n b).1 j hj⟩
      · rintro ⟨m, hm⟩
        obtain ⟨j, hj, _⟩ := (getItemsFound_members apis found n b).2 m hm
        exact ⟨j, hj⟩
    have hfield : fields.length = a.fieldInfo.length ↔
        ∀ f ∈ a.fieldInfo, ∃ m, FieldMembers apis found f m := by
      rw [hf3]
      refine forall_congr' fun f => ?_
      refine ⟨fun hh hfm => ?_, fun hh hfm => ?_⟩
      · obtain ⟨j, hj⟩ := hh hfm
        exact ⟨_, (fieldItems_members apis found n f _ hj).1 j rfl⟩
      · obtain ⟨m, hm⟩ := hh hfm
        obtain ⟨o, ho⟩ := hf1 f hfm
        obtain ⟨j, hj, _⟩ := (fieldItems_members apis found n f o ho).2 m hm
        exact ⟨j, by rw [ho, hj]⟩
    have hund : ((mapWhile (getItemsFound (enumNames apis) n found) a.bases).length ≠ a.bases.length ∨
        fields.length ≠ a.fieldInfo.length ∨ n.name ∈ un) ↔ ¬ Understood apis found n.name a := by
      unfold Understood
      rw [ne_eq, ne_eq, hbase, hfield, hex.unknown]
      constructor
      · rintro (h | h | h) ⟨h1, h2, h3⟩
        · exact h h1
        · exact h h2
        · exact h3 h
      · intro h
        by_cases h1 : ∀ b ∈ a.bases, ∃ m, HasMembers apis found b m
        · by_cases h2 : ∀ f ∈ a.fieldInfo, ∃ m, FieldMembers apis found f m
          · by_cases h3 : StrangeAssignment apis n.name
            · exact .inr (.inr h3)
            · exact absurd ⟨h1, h2, h3⟩ h
          · exact .inr (.inl h2)
        · exact .inl h1
    have kD := hex.kinds n.name .defaultCtor (by simp)
    have kC := hex.kinds n.name .copyCtor (by simp)
    have kM := hex.kinds n.name .moveCtor (by simp)
    have kO := hex.kinds n.name .otherCtor (by simp)
    have kX := hex.kinds n.name .destructor (by simp)
    have kN := hex.nonConst n.name
    simp only [MemberKind.explicitKind] at kD kC kM kO kX
    by_cases hU : Understood apis found n.name a
    · rw [if_neg (fun h => (hund.1 h) hU)] at h
      have hU' := id hU
      obtain ⟨hU1, hU2, hU3⟩ := hU'
      -- conditions on the components
      have comp : ∀ (pb pf : ItemsFound → Bool) (B F : Members → Prop),
          (∀ j : ItemsFound, j.nonConstCopy = .notPresent → (pb j = true ↔ B j.members)) →
          (∀ j : ItemsFound, j.nonConstCopy = .notPresent → (pf j = true ↔ F j.members)) →
          (((mapWhile (getItemsFound (enumNames apis) n found) a.bases).all pb = true ∧
            fields.all pf = true) ↔ Components apis found a B F) := by
        intro pb pf B F hB hF
        unfold Components
        rw [List.all_eq_true, List.all_eq_true]
        refine and_congr ?_ ?_
        · constructor
          · intro hh b hb m hm
            obtain ⟨j, hj, rfl⟩ := (getItemsFound_members apis found n b).2 m hm
            refine (hB j (getItemsFound_nonConst hnc hj)).1 (hh j ?_)
            refine mapWhile_all _ _ ?_ hb hj
            rw [← mapWhile_length]; exact hbase.2 hU1
          · intro hh j hj
            obtain ⟨b, hb, hjb⟩ := mapWhile_mem _ _ _ hj
            exact (hB j (getItemsFound_nonConst hnc hjb)).2
              (hh b hb _ ((getItemsFound_members apis found n b).1 j hjb))
        · constructor
          · intro hh f hf m hm
            obtain ⟨o, ho⟩ := hf1 f hf
            obtain ⟨j, rfl, rfl⟩ := (fieldItems_members apis found n f o ho).2 m hm
            exact (hF j (fieldItems_nonConst hnc ho)).1 (hh j ((hf2 j).2 ⟨f, hf, ho⟩))
          · intro hh j hj
            obtain ⟨f, hf, ho⟩ := (hf2 j).1 hj
            exact (hF j (fieldItems_nonConst hnc ho)).2
              (hh f hf _ ((fieldItems_members apis found n f _ ho).1 j rfl))
      generalize hbs : mapWhile (getItemsFound (enumNames apis) n found) a.bases = bs at h comp
      have nn : SpecialMemberFound.callableSubclass .notPresent = false := rfl
      have nn' : SpecialMemberFound.callableAny .notPresent = false := rfl
      -- the copy constructors
      have hcopyCond : ((foldDecls none (declarations n.name .moveCtor apis)).isNone &&
          !d.hasRvalueReferenceFields &&
          bs.all (fun i => i.destructor.callableSubclass &&
            (i.constCopy.callableSubclass || i.nonConstCopy.callableSubclass)) &&
          fields.all (fun i => i.destructor.callableAny &&
            (i.constCopy.callableAny || i.nonConstCopy.callableAny))) = true ↔
          (declarations n.name .moveCtor apis = [] ∧ d.hasRvalueReferenceFields = false ∧
          Components apis found a (fun m => UsableInDerived m.dtor ∧ UsableInDerived m.copy)
            (fun m => Usable m.dtor ∧ Usable m.copy)) := by
        rw [← comp (fun i => i.destructor.callableSubclass &&
            (i.constCopy.callableSubclass || i.nonConstCopy.callableSubclass))
          (fun i => i.destructor.callableAny && (i.constCopy.callableAny || i.nonConstCopy.callableAny))]
        · simp only [Bool.and_eq_true, Bool.not_eq_true', foldDecls_isNone, and_assoc]
        · intro j hj
          simp only [hj, nn, Bool.or_false, Bool.and_eq_true, callableSubclass_iff]; exact Iff.rfl
        · intro j hj
          simp only [hj, nn', Bool.or_false, Bool.and_eq_true, callableAny_iff]; exact Iff.rfl
      have hcopy : ∃ s, decideCopy (fun k => AMap.get? ex (n.name, k)) d.hasRvalueReferenceFields bs fields =
            (s, .notPresent) ∧
          Decided ((∀ k ∈ [MemberKind.copyCtor, .moveCtor], declarations n.name k apis = []) ∧
            d.hasRvalueReferenceFields = false ∧
            Components apis found a (fun m => UsableInDerived m.dtor ∧ UsableInDerived m.copy)
              (fun m => Usable m.dtor ∧ Usable m.copy)) (declarations n.name .copyCtor apis) s := by
        unfold decideCopy
        simp only [kC, kM, kN, Option.isNone_none, Bool.and_true, explicitState_foldDecls]
        by_cases hc : declarations n.name .copyCtor apis = []
        · rw [if_pos ((foldDecls_isNone _).2 hc)]
          by_cases hcc : declarations n.name .moveCtor apis = [] ∧ d.hasRvalueReferenceFields = false ∧
              Components apis found a (fun m => UsableInDerived m.dtor ∧ UsableInDerived m.copy)
                (fun m => Usable m.dtor ∧ Usable m.copy)
          · rw [if_pos (hcopyCond.2 hcc), if_pos]
            · exact ⟨_, rfl, .inl ⟨⟨by simp [hc, hcc.1], hcc.2⟩, rfl⟩⟩
            rw [List.all_append, Bool.and_eq_true]
            have hcomp := (comp (fun i => i.constCopy.present) (fun i => i.constCopy.present)
              (fun m => m.copy.present = true) (fun m => m.copy.present = true)
              (fun _ _ => Iff.rfl) (fun _ _ => Iff.rfl)).2
            apply hcomp
            have up : ∀ s, Usable s ∨ UsableInDerived s → SpecialMemberFound.present s = true := by
              rintro s ((rfl | rfl) | (rfl | rfl | rfl)) <;> rfl
            exact ⟨fun b hb m hm => up _ (.inr (hcc.2.2.1 b hb m hm).2),
              fun f hf m hm => up _ (.inl (hcc.2.2.2 f hf m hm).2)⟩
          · rw [if_neg (fun h => hcc (hcopyCond.1 h))]
            exact ⟨_, rfl, .inr ⟨fun h => hcc ⟨h.1 _ (by simp), h.2⟩, by rw [hc]; rfl⟩⟩
        · rw [if_neg (fun h => hc ((foldDecls_isNone _).1 h))]
          exact ⟨_, rfl, .inr ⟨fun h => hc (h.1 _ (by simp)), rfl⟩⟩
      obtain ⟨cs, hcs, hcd⟩ := hcopy
      subst h
      refine ⟨rfl, ?_, fun _ => ?_, fun h => absurd hU h⟩
      · simp only [fullItems, hcs]
      refine ⟨?_, ?_, ?_, ?_⟩
      · -- default constructor
        simp only [ItemsFound.members, fullItems]
        by_cases hd : ∀ k ∈ [MemberKind.defaultCtor, .copyCtor, .moveCtor, .otherCtor],
            declarations n.name k apis = []
        · have hdd := hd .defaultCtor (by simp)
          refine decided_of (b := !d.hasRvalueReferenceFields &&
            bs.all (fun i => i.destructor.callableSubclass && i.defaultConstructor.callableSubclass) &&
            fields.all fun i => i.destructor.callableAny && i.defaultConstructor.callableAny) ?_ ?_
          · rw [← comp (fun i => i.destructor.callableSubclass && i.defaultConstructor.callableSubclass)
              (fun i => i.destructor.callableAny && i.defaultConstructor.callableAny)]
            · simp only [Bool.and_eq_true, Bool.not_eq_true', and_assoc]
              constructor
              · exact fun h => ⟨hd, h⟩
              · exact fun h => h.2
            · intro j _; simp only [Bool.and_eq_true, callableSubclass_iff]; exact Iff.rfl
            · intro j _; simp only [Bool.and_eq_true, callableAny_iff]; exact Iff.rfl
          · unfold decideDefault
            simp only [kD, kC, kM, kO, kN, List.any_cons, List.any_nil, hdd, hd .copyCtor (by simp),
              hd .moveCtor (by simp), hd .otherCtor (by simp), foldDecls, implicitIf]
            rfl
        · refine .inr ⟨fun h => hd h.1, ?_⟩
          unfold decideDefault
          rw [if_neg]
          · simp only [kD, explicitState_foldDecls]
          · intro hh
            apply hd
            simp only [kD, kC, kM, kO, kN, List.any_cons, List.any_nil, Bool.and_eq_true,
              Bool.not_eq_true', Bool.or_eq_false_iff, foldDecls_isNone, Option.isSome_none] at hh
            have e : ∀ l, (foldDecls none l).isSome = false → l = [] := by
              intro l hl
              rw [← foldDecls_isNone]
              cases hx : foldDecls none l <;> simp_all
            obtain ⟨h1, h2, _, h3, h4, _⟩ := hh
            simp [h1, e _ h2, e _ h3, e _ h4]
      · -- destructor
        simp only [ItemsFound.members, fullItems]
        by_cases hd : declarations n.name .destructor apis = []
        · refine decided_of (b := bs.all (fun i => i.destructor.callableSubclass) &&
            fields.all fun i => i.destructor.callableAny) ?_ ?_
          · rw [← comp (fun i => i.destructor.callableSubclass) (fun i => i.destructor.callableAny)]
            · simp only [Bool.and_eq_true]
              exact ⟨fun h => ⟨hd, h⟩, fun h => h.2⟩
            · intro j _; simp only [callableSubclass_iff]; exact Iff.rfl
            · intro j _; simp only [callableAny_iff]; exact Iff.rfl
          · unfold decideDestructor
            simp only [kX, hd, foldDecls, implicitIf]
            rfl
        · refine .inr ⟨fun h => hd h.1, ?_⟩
          unfold decideDestructor
          rw [if_neg]
          · simp only [kX, explicitState_foldDecls]
          · intro hh; simp only [kX, foldDecls_isNone] at hh; exact hd hh
      · -- copy constructor
        simp only [ItemsFound.members, fullItems, hcs]
        exact hcd
      · -- move constructor
        simp only [ItemsFound.members, fullItems]
        have hass : declarations n.name .assignment apis = [] ↔ ¬ KnownAssignment apis n.name := by
          constructor
          · rintro h ⟨n', f, an, hm, hk, _⟩
            exact (declarations_ne_nil_iff n.name .assignment apis).2 ⟨n', f, an, hm, hk⟩ h
          · intro h
            refine Classical.byContradiction fun hne => ?_
            obtain ⟨n', f, an, hm, hk⟩ := (declarations_ne_nil_iff n.name .assignment apis).1 hne
            cases he : an.ignoreReason with
            | none => exact h ⟨n', f, an, hm, hk, .inl he⟩
            | some e =>
              by_cases hee : e.err = .assignmentOperator
              · exact h ⟨n', f, an, hm, hk, .inr (by simp [he, hee])⟩
              · exact hU3 ⟨n', f, an, e, hm, hk, he, hee⟩
        have hka := hex.assign n.name
        by_cases hd : ∀ k ∈ [MemberKind.moveCtor, .copyCtor, .assignment, .destructor],
            declarations n.name k apis = []
        · have hna : ¬ KnownAssignment apis n.name := hass.1 (hd .assignment (by simp))
          rw [← hka] at hna
          simp only [not_or, Bool.not_eq_true] at hna
          obtain ⟨a1, a2, a3⟩ := hna
          refine decided_of (b :=
            bs.all (fun i => i.destructor.callableSubclass && i.moveConstructor.callableSubclass) &&
            fields.all fun i => i.moveConstructor.callableAny) ?_ ?_
          · rw [← comp (fun i => i.destructor.callableSubclass && i.moveConstructor.callableSubclass)
              (fun i => i.moveConstructor.callableAny)]
            · simp only [Bool.and_eq_true]
              exact ⟨fun h => ⟨hd, h⟩, fun h => h.2⟩
            · intro j _; simp only [Bool.and_eq_true, callableSubclass_iff]; exact Iff.rfl
            · intro j _; simp only [callableAny_iff]; exact Iff.rfl
          · unfold decideMove
            simp only [kM, kC, kX, kN, hd .moveCtor (by simp), hd .copyCtor (by simp),
              hd .destructor (by simp), foldDecls, implicitIf, a1, a2, a3]
            rfl
        · refine .inr ⟨fun h => hd h.1, ?_⟩
          unfold decideMove
          rw [if_neg]
          · simp only [kM, explicitState_foldDecls]
          · intro hh
            apply hd
            simp only [kM, kC, kX, kN, Bool.not_eq_true', Bool.or_eq_false_iff] at hh
            have e : ∀ l, (foldDecls none l).isSome = false → l = [] := by
              intro l hl
              rw [← foldDecls_isNone]
              cases hx : foldDecls none l <;> simp_all
            obtain ⟨⟨⟨⟨⟨⟨h1, h2⟩, _⟩, h4⟩, h5⟩, h6⟩, h7⟩ := hh
            have hna : ¬ KnownAssignment apis n.name := by
              rw [← hka]; simp [h4, h5, h6]
            simp [e _ h1, e _ h2, e _ h7, hass.2 hna]
    · rw [if_pos (hund.2 hU)] at h
      subst h
      refine ⟨rfl, ?_, fun h => absurd h hU, fun _ => ⟨?_, ?_, ?_, ?_⟩⟩
      · simp only [explicitOnly, kN]; rfl
      · simp only [explicitOnly, ItemsFound.members, kD, explicitState_foldDecls]
      · simp only [explicitOnly, ItemsFound.members, kX]
        rw [foldDecls_eq]
        match declarations n.name .destructor apis with
        | [] => exact .inl ⟨rfl, rfl⟩
        | [f] =>
          refine .inr (.inr ⟨rfl, ?_⟩)
          simp only [asDeclared]
          by_cases hdel : f.isDeleted = some .deleted <;> simp [hdel]
        | f :: g :: l => exact .inr (.inl ⟨f, g, l, rfl, rfl⟩)
      · simp only [explicitOnly, ItemsFound.members, kC, explicitState_foldDecls]
      · simp only [explicitOnly, ItemsFound.members, kM, explicitState_foldDecls]

theorem analysed_iff (a : PodAnalysis) : analysed a = true ↔ Analysed a := by
  unfold analysed Analysed
  simp [or_assoc, and_assoc]

theorem classLoop_nonConst (apis : List FnPre1Api) (ex : Explicits) (un : List QName)
    (hex : ExplicitsSpec apis ex un) (l : List FnPre1Api) (m m' : AMap QName ItemsFound)
    (hm : NoNonConst m) (h : l.foldl (classStep ex un (enumNames apis)) (some m) = some m') :
    NoNonConst m' := by
  induction l generalizing m with
  | nil => cases h; exact hm
  | cons a l ih =>
    rw [List.foldl_cons] at h
    cases hs : classStep ex un (enumNames apis) (some m) a with
    | none => rw [hs, classLoop_none] at h; cases h
    | some mx =>
      rw [hs] at h
      refine ih mx ?_ h
      rcases classStep_some hs with ⟨n, d, an, i, rfl, _, hc, _, rfl⟩ | ⟨_, rfl⟩
      · intro q j hj
        rw [AMap.get?_insert] at hj
        split at hj
        · cases hj; exact (classItems_spec apis ex un hex m hm n d an i hc).2.1
        · exact hm q j hj
      · exact hm

/-- **C13 (the rules)**: whenever the analysis of special members succeeds, for every collection of items
with at most one item per name in which a class is recorded to depend on the classes it holds:
exactly the classes which are neither opaque, generic nor in an anonymous namespace get an entry, and
the entry of each is what `FullRules` (or, if some base or field is not understood, `DeclaredOnly`) says,
given its declarations and the final entries of its bases and fields. So the result does not depend on the
order of the items. How these rules differ from those of C++ is the subject of the theorems which
follow. -/
theorem special_members_partial (apis : List FnPre1Api) (hn : (apis.map (·.name)).Nodup)
    (hf : FieldsRecorded apis) (found : AMap QName ItemsFound)
    (h : findConstructorsPresent apis = some found) :
    (∀ c, (∃ i, found.get? c = some i) ↔
      ∃ n d a, Api.struct n d a ∈ apis ∧ Analysed a ∧ n.name = c) ∧
    ∀ n d a, Api.struct n d a ∈ apis → Analysed a →
      ∃ i, found.get? n.name = some i ∧ i.name = some n ∧ i.nonConstCopy = .notPresent ∧
        (Understood apis found n.name a → FullRules apis found n.name d a i.members) ∧
        (¬ Understood apis found n.name a → DeclaredOnly apis n.name i.members) := by
  unfold findConstructorsPresent at h
  cases hx : findExplicitItems apis with
  | none => rw [hx] at h; cases h
  | some r =>
    obtain ⟨ex, un⟩ := r
    rw [hx] at h
    simp only [Option.bind_some] at h
    have hex := (findExplicitItems_spec apis).2 ex un hx
    rcases fields_and_bases_first_spec Api.name FnPre1Api.fieldAndBaseDeps apis hn with
      ⟨out, ho, hperm, hord⟩ | ⟨out, rest, ho, hperm, hst⟩
    · rw [ho] at h
      simp only at h
      have hnc : NoNonConst found :=
        classLoop_nonConst apis ex un hex out [] found (by intro q i h; cases h) h
      constructor
      · intro c
        have := (classLoop_get out h c).1
        rw [Option.isSome_iff_exists] at this
        rw [this]
        constructor
        · rintro (h | ⟨n, d, a, hm, ha, e⟩)
          · cases h
          · exact ⟨n, d, a, hperm.subset hm, (analysed_iff a).1 ha, e⟩
        · rintro ⟨n, d, a, hm, ha, e⟩
          exact .inr ⟨n, d, a, hperm.symm.subset hm, (analysed_iff a).2 ha, e⟩
      · intro n d a hm ha
        obtain ⟨i, hi, hci⟩ := classLoop_fixpoint apis hn hf ex un (enumNames apis) out hperm hord found h
          n d a hm ((analysed_iff a).2 ha)
        exact ⟨i, hi, classItems_spec apis ex un hex found hnc n d a i hci⟩
    · rw [ho] at h; cases h

/-! ## When the analysis gives up -/

/-- Some parameter is declared to be an rvalue reference. -/
def TakesRvalue (f : FuncToConvert) : Prop :=
  ∃ n segs args, FnArg.typed n (.path ("__bindgen_marker_RValueReference" :: segs) args) ∈ f.inputs

theorem anyInputIsRvalueReference_iff (f : FuncToConvert) :
    anyInputIsRvalueReference f.inputs = true ↔ TakesRvalue f := by
  unfold anyInputIsRvalueReference TakesRvalue
  rw [List.any_eq_true]
  constructor
  · rintro ⟨x, hx, h⟩
    split at h
    · cases h
    · rename_i n ty
      unfold typeIsReference at h
      split at h
      · rename_i s segs args
        simp only [if_true, decide_eq_true_eq] at h
        subst h
        exact ⟨_, _, _, hx⟩
      · cases h
  · rintro ⟨n, segs, args, hx⟩
    exact ⟨_, hx, by simp [typeIsReference]⟩

/-- An assignment operator which takes an rvalue reference but whose first parameter is not `this`. -/
def MisshapenAssignment (a : FnPre1Api) : Prop :=
  ∃ n f an c, a = .function n f an ∧ memberOf f an = some (c, .assignment) ∧
    (an.ignoreReason = none ∨ (an.ignoreReason.map (·.err)) = some .assignmentOperator) ∧
    TakesRvalue f ∧ ∀ p, an.paramDetails.head? = some p → p.selfType = none

theorem contribution_panic_iff (a : FnPre1Api) : contribution a = .panic ↔ MisshapenAssignment a := by
  unfold MisshapenAssignment
  constructor
  · intro h
    unfold contribution at h
    split at h
    · rename_i n f an
      split at h
      · rename_i mk ty hm
        split at h
        · rename_i hs
          split at h
          · rename_i hr
            split at h
            · cases h
            · rename_i hv
              refine ⟨n, f, an, ty, rfl, (memberOf_assignment_iff _ _ _).2 ⟨⟨_, hm⟩, hs⟩, hr,
                (anyInputIsRvalueReference_iff f).1 (by simpa using hv), ?_⟩
              split at h
              · rename_i hp; simp [hp]
              · rename_i p r hp
                split at h
                · rename_i hself; rintro q hq; simp [hp] at hq; subst hq; exact hself
                · cases h
                · cases h
          · cases h
        · split at h <;> cases h
      · split at h <;> cases h
      · cases h
    · cases h
  · rintro ⟨n, f, an, c, rfl, hm, hr, hv, hp⟩
    obtain ⟨⟨k, hk⟩, hs⟩ := (memberOf_assignment_iff _ _ _).1 hm
    have hv := (anyInputIsRvalueReference_iff f).2 hv
    simp only [contribution, hk, hs, if_true, hr, hv, Bool.not_true]
    split
    · rename_i h; cases h
    · split
      · rfl
      · rename_i p r hpd
        rw [hp p (by simp [hpd])]

/-- A field whose type is written as a path which names nothing. -/
def NamelessField (f : FieldInfo) : Prop :=
  f.ByValue ∧ ∃ segs g, (f.ty = .path segs g ∨ ∃ n, f.ty = .array (.path segs g) n) ∧
    QName.ofTypePath segs = none

theorem fieldItems_none_iff (get : QName → Option ItemsFound) (n : ApiName) (f : FieldInfo) :
    fieldItems get n f = none ↔ NamelessField f := by
  unfold NamelessField FieldInfo.ByValue
  constructor
  · intro h
    unfold fieldItems at h
    split at h
    · rename_i hk
      split at h
      · rename_i segs g hty; exact ⟨.inl hk, segs, g, .inl hty, by simpa using h⟩
      · rename_i segs g k hty; exact ⟨.inl hk, segs, g, .inr ⟨k, hty⟩, by simpa using h⟩
      · cases h
    · rename_i id hk
      split at h
      · rename_i segs g hty; exact ⟨.inr ⟨id, hk⟩, segs, g, .inl hty, by simpa using h⟩
      · rename_i segs g k hty; exact ⟨.inr ⟨id, hk⟩, segs, g, .inr ⟨k, hty⟩, by simpa using h⟩
      · cases h
    · cases h
  · rintro ⟨hk | ⟨id, hk⟩, segs, g, hty | ⟨k, hty⟩, hq⟩ <;> simp [fieldItems, hk, hty, hq]

theorem classItems_none_iff (ex : Explicits) (un en : List QName) (m : AMap QName ItemsFound) (n : ApiName)
    (d : StructDetails) (a : PodAnalysis) :
    classItems ex un en m n d a = none ↔ ∃ f ∈ a.fieldInfo, NamelessField f := by
  unfold classItems
  simp only [Option.map_eq_none_iff, fieldsItems_none_iff, fieldItems_none_iff]

theorem classLoop_none_iff (ex : Explicits) (un en : List QName) (l : List FnPre1Api)
    (hn : (l.map (·.name)).Nodup) (m : AMap QName ItemsFound) (hm : ∀ a ∈ l, m.get? a.name = none) :
    l.foldl (classStep ex un en) (some m) = none ↔
      ∃ n d a, Api.struct n d a ∈ l ∧ Analysed a ∧ ∃ f ∈ a.fieldInfo, NamelessField f := by
  induction l generalizing m with
  | nil => simp
  | cons a l ih =>
    rw [List.map_cons, List.nodup_cons] at hn
    rw [List.foldl_cons]
    cases hs : classStep ex un en (some m) a with
    | none =>
      rw [classLoop_none]
      simp only [true_iff]
      unfold classStep at hs
      split at hs
      · rename_i n d an
        split at hs
        · rename_i ha
          simp only [Option.bind_some] at hs
          cases hc : classItems ex un en m n d an with
          | none =>
            exact ⟨n, d, an, .head _, (analysed_iff an).1 ha, (classItems_none_iff ex un en m n d an).1 hc⟩
          | some i =>
            rw [hc] at hs
            simp only [Option.bind_some] at hs
            have := hm _ (List.mem_cons_self)
            rw [show m.get? n.name = none from this] at hs
            cases hs
        · cases hs
      · cases hs
    | some mx =>
      have hfresh : ∀ b ∈ l, mx.get? b.name = none := by
        intro b hb
        have hbn := hm b (by simp [hb])
        rcases classStep_some hs with ⟨n, d, an, i, rfl, _, _, _, rfl⟩ | ⟨_, rfl⟩
        · have hne : n.name ≠ b.name := fun e => hn.1 (List.mem_map.2 ⟨b, hb, e.symm⟩)
          rw [AMap.get?_insert_of_ne _ _ hne, hbn]
        · exact hbn
      rw [ih hn.2 mx hfresh]
      constructor
      · rintro ⟨n, d, an, hmem, h⟩; exact ⟨n, d, an, .tail _ hmem, h⟩
      · rintro ⟨n, d, an, hmem, ha, h⟩
        rcases List.mem_cons.1 hmem with e | hmem
        · exfalso
          rcases classStep_some hs with ⟨n', d', an', i, rfl, _, hc, _, _⟩ | ⟨hne, _⟩
          · cases e
            rw [(classItems_none_iff ex un en m n d an).2 h] at hc; cases hc
          · have := hne n d an e.symm
            rw [(analysed_iff an).2 ha] at this; cases this
        · exact ⟨n, d, an, hmem, ha, h⟩

/-- **C13 (when the analysis gives up)**: exactly when classes contain or derive from each other in a
circle, an assignment operator taking an rvalue reference has no `this`, or the type of a field is an
empty path. -/
theorem special_members_panic_iff (apis : List FnPre1Api) (hn : (apis.map (·.name)).Nodup) :
    findConstructorsPresent apis = none ↔
      (∃ S : List FnPre1Api, (∀ a ∈ S, a ∈ apis) ∧ Stuck Api.name FnPre1Api.fieldAndBaseDeps S) ∨
      (∃ a ∈ apis, MisshapenAssignment a) ∨
      (∃ n d a, Api.struct n d a ∈ apis ∧ Analysed a ∧ ∃ f ∈ a.fieldInfo, NamelessField f) := by
  have hx := (findExplicitItems_spec apis).1
  simp only [contribution_panic_iff] at hx
  have hok := fields_and_bases_first_ok_iff Api.name FnPre1Api.fieldAndBaseDeps apis hn
  unfold findConstructorsPresent
  cases hex : findExplicitItems apis with
  | none => simp only [Option.bind_none, true_iff]; exact .inr (.inl (hx.1 hex))
  | some r =>
    obtain ⟨ex, un⟩ := r
    have hno : ¬ ∃ a ∈ apis, MisshapenAssignment a := fun h => by
      rw [hx.2 h] at hex; cases hex
    simp only [Option.bind_some]
    rcases fields_and_bases_first_spec Api.name FnPre1Api.fieldAndBaseDeps apis hn with
      ⟨out, ho, hperm, hord⟩ | ⟨out, rest, ho, hperm, hst⟩
    · rw [ho]
      simp only
      rw [classLoop_none_iff ex un _ out ((hperm.map _).nodup_iff.2 hn) [] (fun _ _ => rfl)]
      constructor
      · rintro ⟨n, d, a, hm, h⟩; exact .inr (.inr ⟨n, d, a, hperm.subset hm, h⟩)
      · rintro (h | h | ⟨n, d, a, hm, h⟩)
        · exact absurd h (hok.1 ⟨out, ho⟩)
        · exact absurd h hno
        · exact ⟨n, d, a, hperm.symm.subset hm, h⟩
    · rw [ho]
      simp only [true_iff]
      exact .inl ⟨rest, fun a ha => hperm.subset (by simp [ha]), hst⟩

end Verif
