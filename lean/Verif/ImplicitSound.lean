import Verif.ImplicitProps

/-!
# C13 and C14: the special members found, and those of C++
-/

set_option autoImplicit false

namespace Verif

/-! ## Specification: C++ -/

/-- Who calls a member. -/
inductive Level where
  | anyone | derived
deriving DecidableEq, Repr

/-- Who may call a member of that visibility. -/
def Accessible (v : CppVisibility) (l : Level) : Prop := v = .pub ∨ (v = .prot ∧ l = .derived)

/-- A type of which autocxx knows the members. -/
def KnownType (apis : List FnPre1Api) (q : QName) : Prop :=
  (∃ n d, Api.enum n d ∈ apis ∧ n.name = q) ∨ (∃ m, constructorDetails q = some m) ∨
    ∃ n d a, Api.struct n d a ∈ apis ∧ Analysed a ∧ n.name = q

/-- All bases and fields have known types, and the assignment operators can be understood. -/
def KnownClass (apis : List FnPre1Api) (c : QName) (a : PodAnalysis) : Prop :=
  (∀ b ∈ a.bases, KnownType apis b) ∧
  (∀ f ∈ a.fieldInfo, f.ByValue → ∃ q, HoldsType f.ty q ∧ KnownType apis q) ∧ ¬ StrangeAssignment apis c

/-- The class declares a copy constructor whose parameter is not a const reference. -/
def DeclaresNonConstCopy (apis : List FnPre1Api) (c : QName) : Prop :=
  ∃ f ∈ declarations c .otherCtor apis, f.specialMember = some .copyConstructor

/-- The class declares a move assignment operator. -/
def DeclaresMoveAssignment (apis : List FnPre1Api) (c : QName) : Prop :=
  ∃ f ∈ declarations c .assignment apis, TakesRvalue f

/-- The class declares the member with `= default`, accessibly. -/
def Defaulted (apis : List FnPre1Api) (c : QName) (k : MemberKind) (l : Level) : Prop :=
  ∃ f, declarations c k apis = [f] ∧ f.isDeleted = some .defaulted ∧ Accessible f.cppVis l

/-- In C++ the type has this special member, and it is not deleted and can be called from there: the
rules of the standard ([class.default.ctor], [class.dtor], [class.copy.ctor]) as far as they concern
classes without variant members, const members or default member initializers. (A class can also be
moved by copying a member which can only be copied; a move constructor of that sort is not counted
here.) About a class not all of whose bases and fields are known the only thing supposed is that
it has a destructor if it declares none. -/
inductive CppHas (apis : List FnPre1Api) : QName → MemberKind → Level → Prop
  | enum {q : QName} {k : MemberKind} {l : Level} (n : ApiName) (d : String) (h : Api.enum n d ∈ apis)
      (hq : n.name = q) : CppHas apis q k l
  | knownDefault {q : QName} {m c : Bool} {l : Level} (h : constructorDetails q = some (m, c)) :
      CppHas apis q .defaultCtor l
  | knownDestructor {q : QName} {m c : Bool} {l : Level} (h : constructorDetails q = some (m, c)) :
      CppHas apis q .destructor l
  | knownCopy {q : QName} {m : Bool} {l : Level} (h : constructorDetails q = some (m, true)) :
      CppHas apis q .copyCtor l
  | knownMove {q : QName} {c : Bool} {l : Level} (h : constructorDetails q = some (true, c)) :
      CppHas apis q .moveCtor l
  | declared {c : QName} {k : MemberKind} {l : Level} (f : FuncToConvert)
      (h : declarations c k apis = [f]) (hd : f.isDeleted = none) (hv : Accessible f.cppVis l) :
      CppHas apis c k l
  | implicitDefault {n : ApiName} {d : StructDetails} {a : PodAnalysis} {l : Level}
      (h : Api.struct n d a ∈ apis) (hk : KnownClass apis n.name a)
      (hdecl : (∀ k ∈ [MemberKind.defaultCtor, .copyCtor, .moveCtor, .otherCtor],
        declarations n.name k apis = []) ∨ Defaulted apis n.name .defaultCtor l)
      (href : ∀ f ∈ a.fieldInfo, f.typeKind ≠ .reference ∧ f.typeKind ≠ .mutableReference ∧
        f.typeKind ≠ .rvalueReference)
      (hrv : d.hasRvalueReferenceFields = false)
      (hb : ∀ b ∈ a.bases, ∀ k ∈ [MemberKind.destructor, .defaultCtor], CppHas apis b k .derived)
      (hf : ∀ f ∈ a.fieldInfo, f.ByValue → ∀ q, HoldsType f.ty q →
        ∀ k ∈ [MemberKind.destructor, .defaultCtor], CppHas apis q k .anyone) :
      CppHas apis n.name .defaultCtor l
  | implicitDestructor {n : ApiName} {d : StructDetails} {a : PodAnalysis} {l : Level}
      (h : Api.struct n d a ∈ apis) (hk : KnownClass apis n.name a)
      (hdecl : declarations n.name .destructor apis = [] ∨ Defaulted apis n.name .destructor l)
      (hb : ∀ b ∈ a.bases, CppHas apis b .destructor .derived)
      (hf : ∀ f ∈ a.fieldInfo, f.ByValue → ∀ q, HoldsType f.ty q → CppHas apis q .destructor .anyone) :
      CppHas apis n.name .destructor l
  | implicitCopy {n : ApiName} {d : StructDetails} {a : PodAnalysis} {l : Level}
      (h : Api.struct n d a ∈ apis) (hk : KnownClass apis n.name a)
      (hdecl : ((∀ k ∈ [MemberKind.copyCtor, .moveCtor], declarations n.name k apis = []) ∧
        ¬ DeclaresNonConstCopy apis n.name ∧ ¬ DeclaresMoveAssignment apis n.name) ∨
        Defaulted apis n.name .copyCtor l)
      (hrv : d.hasRvalueReferenceFields = false)
      (hb : ∀ b ∈ a.bases, ∀ k ∈ [MemberKind.destructor, .copyCtor], CppHas apis b k .derived)
      (hf : ∀ f ∈ a.fieldInfo, f.ByValue → ∀ q, HoldsType f.ty q →
        ∀ k ∈ [MemberKind.destructor, .copyCtor], CppHas apis q k .anyone) :
      CppHas apis n.name .copyCtor l
  | implicitMove {n : ApiName} {d : StructDetails} {a : PodAnalysis} {l : Level}
      (h : Api.struct n d a ∈ apis) (hk : KnownClass apis n.name a)
      (hdecl : ((∀ k ∈ [MemberKind.moveCtor, .copyCtor, .assignment, .destructor],
        declarations n.name k apis = []) ∧ ¬ DeclaresNonConstCopy apis n.name) ∨
        Defaulted apis n.name .moveCtor l)
      (hb : ∀ b ∈ a.bases, ∀ k ∈ [MemberKind.destructor, .moveCtor], CppHas apis b k .derived)
      (hf : ∀ f ∈ a.fieldInfo, f.ByValue → ∀ q, HoldsType f.ty q →
        ∀ k ∈ [MemberKind.destructor, .moveCtor], CppHas apis q k .anyone) :
      CppHas apis n.name .moveCtor l
  | supposedDestructor {n : ApiName} {d : StructDetails} {a : PodAnalysis} {l : Level}
      (h : Api.struct n d a ∈ apis) (hk : ¬ KnownClass apis n.name a)
      (hdecl : declarations n.name .destructor apis = []) : CppHas apis n.name .destructor l

/-- What the classes must not do for the analysis to be right. Each of the four is needed: see
`defaulted_member_false`, `move_assignment_false`, `non_const_copy_false` and the treatment of several
destructors in `DeclaredOnly`. -/
structure Ordinary (apis : List FnPre1Api) : Prop where
  /-- No special member declared with `= default` is nevertheless deleted. -/
  goodDefaulted : ∀ c, ∀ k ∈ [MemberKind.defaultCtor, .copyCtor, .moveCtor, .destructor], ∀ l,
    Defaulted apis c k l → CppHas apis c k l
  /-- No class has several destructors. -/
  oneDestructor : ∀ c, (declarations c .destructor apis).length ≤ 1
  /-- No class declares a move assignment operator. -/
  noMoveAssignment : ∀ c, ¬ DeclaresMoveAssignment apis c
  /-- No class declares a copy constructor whose parameter is not a const reference. -/
  noNonConstCopy : ∀ c, ¬ DeclaresNonConstCopy apis c

/-- The state lets that caller call the member. -/
def UsableAt : Level → SpecialMemberFound → Prop
  | .anyone, s => Usable s
  | .derived, s => UsableInDerived s

/-- Everything recorded as usable is usable in C++: of move constructors only if the class can be
destroyed. -/
def SoundFor (apis : List FnPre1Api) (c : QName) (m : Members) : Prop :=
  ∀ l, (UsableAt l m.dflt → CppHas apis c .defaultCtor l) ∧
    (UsableAt l m.dtor → CppHas apis c .destructor l) ∧
    (UsableAt l m.copy → CppHas apis c .copyCtor l) ∧
    (UsableInDerived m.dtor → UsableAt l m.move → CppHas apis c .moveCtor l)

theorem Usable.derived {s : SpecialMemberFound} (h : Usable s) : UsableInDerived s := by
  rcases h with h | h
  · exact .inl h
  · exact .inr (.inl h)

theorem usableAt_implicit (l : Level) : UsableAt l .implicit := by
  cases l
  · exact .inl rfl
  · exact .inl rfl

theorem usableAt_derived {l : Level} {s : SpecialMemberFound} (h : UsableAt l s) : UsableInDerived s := by
  cases l
  · exact Usable.derived h
  · exact h

theorem asDeclared_sound (apis : List FnPre1Api) (ho : Ordinary apis) (c : QName) (k : MemberKind)
    (hk : k ∈ [MemberKind.defaultCtor, .copyCtor, .moveCtor, .destructor]) (l : Level) (h : UsableAt l (asDeclared (declarations c k apis))) : CppHas apis c k l := by
  have hn : ¬ UsableAt l .notPresent := by
    cases l
    · rintro (h | h) <;> cases h
    · rintro (h | h | h) <;> cases h
  generalize hd : declarations c k apis = ds at h
  match ds, h with
  | [], h => exact absurd h hn
  | [f], h =>
    simp only [asDeclared] at h
    split at h
    · exact absurd h hn
    · rename_i hdel
      have hacc : Accessible f.cppVis l := by
        cases l
        · rcases h with h | h
          · cases h
          · exact .inl (SpecialMemberFound.explicit.inj h)
        · rcases h with h | h | h
          · cases h
          · exact .inl (SpecialMemberFound.explicit.inj h)
          · exact .inr ⟨SpecialMemberFound.explicit.inj h, rfl⟩
      cases he : f.isDeleted with
      | none => exact .declared f hd he hacc
      | some e =>
        cases e with
        | deleted => exact absurd he hdel
        | defaulted => exact ho.goodDefaulted c k hk l ⟨f, hd, he, hacc⟩
  | f :: g :: r, h => exact absurd h hn

theorem hasMembers_known (apis : List FnPre1Api) (hn : (apis.map (·.name)).Nodup)
    (hf : FieldsRecorded apis) (found : AMap QName ItemsFound)
    (h : findConstructorsPresent apis = some found) (q : QName) :
    (∃ m, HasMembers apis found q m) ↔ KnownType apis q := by
  have hk := (special_members_partial apis hn hf found h).1
  constructor
  · rintro ⟨m, hm⟩
    cases hm with
    | enum n d h hq => exact .inl ⟨n, d, h, hq⟩
    | known _ hk => exact .inr (.inl ⟨_, hk⟩)
    | cls _ _ hi => exact .inr (.inr ((hk q).1 ⟨_, hi⟩))
  · intro hq
    by_cases he : ∃ n d, Api.enum n d ∈ apis ∧ n.name = q
    · obtain ⟨n, d, hm, hq⟩ := he; exact ⟨_, .enum n d hm hq⟩
    · have hne : ∀ n d, Api.enum n d ∈ apis → n.name ≠ q := fun n d hm e => he ⟨n, d, hm, e⟩
      cases hc : constructorDetails q with
      | some d => exact ⟨_, .known hne (m := d.1) (c := d.2) hc⟩
      | none =>
        rcases hq with hq | ⟨m, hq⟩ | hq
        · exact absurd hq he
        · rw [hc] at hq; cases hq
        · obtain ⟨i, hi⟩ := (hk q).2 hq
          exact ⟨_, .cls hne hc hi⟩

theorem holdsType_unique {ty : Ty} {q q' : QName} (h : HoldsType ty q) (h' : HoldsType ty q') : q = q' := by
  obtain ⟨s, g, e, hq⟩ := h
  obtain ⟨s', g', e', hq'⟩ := h'
  have : s = s' := by
    rcases e with e | ⟨n, e⟩ <;> rcases e' with e' | ⟨n', e'⟩ <;> rw [e] at e' <;> cases e' <;> rfl
  subst this
  rw [hq] at hq'; cases hq'; rfl

theorem understood_known (apis : List FnPre1Api) (hn : (apis.map (·.name)).Nodup)
    (hf : FieldsRecorded apis) (found : AMap QName ItemsFound)
    (h : findConstructorsPresent apis = some found) (c : QName) (a : PodAnalysis) :
    Understood apis found c a ↔ KnownClass apis c a := by
  have hk := hasMembers_known apis hn hf found h
  unfold Understood KnownClass
  refine and_congr ?_ (and_congr ?_ Iff.rfl)
  · exact forall_congr' fun b => imp_congr_right fun _ => hk b
  · refine forall_congr' fun f => imp_congr_right fun _ => ?_
    constructor
    · rintro ⟨m, hm⟩ hv
      cases hm with
      | value _ ht hm => exact ⟨_, ht, (hk _).1 ⟨_, hm⟩⟩
      | scalar hnv => exact absurd hv hnv
    · intro hh
      by_cases hv : f.ByValue
      · obtain ⟨q, ht, hq⟩ := hh hv
        obtain ⟨m, hm⟩ := (hk q).2 hq
        exact ⟨m, .value hv ht hm⟩
      · exact ⟨_, .scalar hv⟩

theorem hasMembers_sound (apis : List FnPre1Api) (found : AMap QName ItemsFound) (q : QName)
    (hs : ∀ i, found.get? q = some i → SoundFor apis q i.members) (m : Members)
    (hm : HasMembers apis found q m) : SoundFor apis q m := by
  cases hm with
  | enum n d h hq =>
    intro l
    exact ⟨fun _ => .enum n d h hq, fun _ => .enum n d h hq, fun _ => .enum n d h hq,
      fun _ _ => .enum n d h hq⟩
  | known _ hk =>
    rename_i mv cp _
    have hn : ∀ l, ¬ UsableAt l .notPresent := by
      intro l
      cases l
      · rintro (h | h) <;> cases h
      · rintro (h | h | h) <;> cases h
    intro l
    refine ⟨fun _ => .knownDefault hk, fun _ => .knownDestructor hk, ?_, ?_⟩
    · cases cp with
      | true => exact fun _ => .knownCopy hk
      | false => exact fun h => absurd h (hn l)
    · cases mv with
      | true => exact fun _ _ => .knownMove hk
      | false => exact fun _ h => absurd h (hn l)
  | cls _ _ hi => exact hs _ hi

/-- One class is sound if its bases and fields are. -/
theorem sound_step (apis : List FnPre1Api) (hn : (apis.map (·.name)).Nodup) (hf : FieldsRecorded apis)
    (ho : Ordinary apis) (found : AMap QName ItemsFound) (h : findConstructorsPresent apis = some found)
    (n : ApiName) (d : StructDetails) (a : PodAnalysis) (hm : Api.struct n d a ∈ apis) (ha : Analysed a)
    (hsound : ∀ q, (q ∈ a.bases ∨ ∃ f ∈ a.fieldInfo, f.ByValue ∧ HoldsType f.ty q) →
      ∀ i, found.get? q = some i → SoundFor apis q i.members)
    (i : ItemsFound) (hi : found.get? n.name = some i) : SoundFor apis n.name i.members := by
  obtain ⟨i', hi', _, _, hfull, hdecl⟩ := (special_members_partial apis hn hf found h).2 n d a hm ha
  rw [hi] at hi'; cases hi'
  have hku := understood_known apis hn hf found h n.name a
  by_cases hU : Understood apis found n.name a
  · have hK := hku.1 hU
    have hR := hfull hU
    have hdecls : ∀ {cond : Prop} {k : MemberKind} {s : SpecialMemberFound} (l : Level),
        k ∈ [MemberKind.defaultCtor, .copyCtor, .moveCtor, .destructor] → Decided cond (declarations n.name k apis) s → UsableAt l s →
        (cond → CppHas apis n.name k l) → CppHas apis n.name k l := by
      rintro cond k s l hk (⟨hc, _⟩ | ⟨_, rfl⟩) hu hcond
      · exact hcond hc
      · exact asDeclared_sound apis ho n.name k hk l hu
    -- the members of bases and fields
    have hbase : ∀ b ∈ a.bases, ∃ m, HasMembers apis found b m ∧ SoundFor apis b m := by
      intro b hb
      obtain ⟨m, hm⟩ := hU.1 b hb
      exact ⟨m, hm, hasMembers_sound apis found b (hsound b (.inl hb)) m hm⟩
    have hfield : ∀ f ∈ a.fieldInfo, f.ByValue → ∀ q, HoldsType f.ty q →
        ∃ m, FieldMembers apis found f m ∧ SoundFor apis q m := by
      intro f hf hv q hq
      obtain ⟨m, hm⟩ := hU.2.1 f hf
      refine ⟨m, hm, ?_⟩
      cases hm with
      | value _ ht hm =>
        have := holdsType_unique ht hq
        subst this
        exact hasMembers_sound apis found _ (hsound _ (.inr ⟨f, hf, hv, hq⟩)) m hm
      | scalar hnv => exact absurd hv hnv
    have two : ∀ {k1 k2 k : MemberKind}, k ∈ [k1, k2] → k = k1 ∨ k = k2 := by simp
    intro l
    refine ⟨fun hu => hdecls l (by simp) hR.dflt hu ?_, fun hu => hdecls l (by simp) hR.dtor hu ?_,
      fun hu => hdecls l (by simp) hR.copy hu ?_, fun hdt hu => hdecls l (by simp) hR.move hu ?_⟩
    · rintro ⟨hd, hrv, hcb, hcf⟩
      refine .implicitDefault hm hK (.inl hd) ?_ hrv ?_ ?_
      · intro f hf
        have hsc : f.ByValue := by
          refine Classical.byContradiction fun hnv => ?_
          rcases (hcf f hf _ (.scalar hnv)).2 with h | h <;> cases h
        rcases hsc with h | ⟨id, h⟩ <;> simp [h]
      · intro b hb k hk
        obtain ⟨m, hm, hs⟩ := hbase b hb
        have hc := hcb b hb m hm
        rcases two hk with rfl | rfl
        · exact (hs .derived).2.1 hc.1
        · exact (hs .derived).1 hc.2
      · intro f hf hv q hq k hk
        obtain ⟨m, hm, hs⟩ := hfield f hf hv q hq
        have hc := hcf f hf m hm
        rcases two hk with rfl | rfl
        · exact (hs .anyone).2.1 hc.1
        · exact (hs .anyone).1 hc.2
    · rintro ⟨hd, hcb, hcf⟩
      refine .implicitDestructor hm hK (.inl hd) ?_ ?_
      · intro b hb
        obtain ⟨m, hm, hs⟩ := hbase b hb
        exact (hs .derived).2.1 (hcb b hb m hm)
      · intro f hf hv q hq
        obtain ⟨m, hm, hs⟩ := hfield f hf hv q hq
        exact (hs .anyone).2.1 (hcf f hf m hm)
    · rintro ⟨hd, hrv, hcb, hcf⟩
      refine .implicitCopy hm hK (.inl ⟨hd, ho.noNonConstCopy _, ho.noMoveAssignment _⟩) hrv ?_ ?_
      · intro b hb k hk
        obtain ⟨m, hm, hs⟩ := hbase b hb
        have hc := hcb b hb m hm
        rcases two hk with rfl | rfl
        · exact (hs .derived).2.1 hc.1
        · exact (hs .derived).2.2.1 hc.2
      · intro f hf hv q hq k hk
        obtain ⟨m, hm, hs⟩ := hfield f hf hv q hq
        have hc := hcf f hf m hm
        rcases two hk with rfl | rfl
        · exact (hs .anyone).2.1 hc.1
        · exact (hs .anyone).2.2.1 hc.2
    · rintro ⟨hd, hcb, hcf⟩
      -- no destructor is declared, so it is the implicit one, and all fields can be destroyed
      have hdd := hd .destructor (by simp)
      have hdtor : Components apis found a (fun m => UsableInDerived m.dtor) (fun m => Usable m.dtor) := by
        rcases hR.dtor with ⟨hc, _⟩ | ⟨_, he⟩
        · exact hc.2
        · rw [he, hdd] at hdt
          rcases hdt with h | h | h <;> cases h
      refine .implicitMove hm hK (.inl ⟨hd, ho.noNonConstCopy _⟩) ?_ ?_
      · intro b hb k hk
        obtain ⟨m, hm, hs⟩ := hbase b hb
        have hc := hcb b hb m hm
        rcases two hk with rfl | rfl
        · exact (hs .derived).2.1 hc.1
        · exact (hs .derived).2.2.2 hc.1 hc.2
      · intro f hf hv q hq k hk
        obtain ⟨m, hm, hs⟩ := hfield f hf hv q hq
        have hc := hcf f hf m hm
        have hx := hdtor.2 f hf m hm
        rcases two hk with rfl | rfl
        · exact (hs .anyone).2.1 hx
        · exact (hs .anyone).2.2.2 hx.derived hc
  · have hD := hdecl hU
    have hK : ¬ KnownClass apis n.name a := fun h => hU (hku.2 h)
    intro l
    refine ⟨fun hu => ?_, fun hu => ?_, fun hu => ?_, fun _ hu => ?_⟩
    · rw [hD.dflt] at hu; exact asDeclared_sound apis ho _ _ (by simp) l hu
    · rcases hD.dtor with ⟨hd, _⟩ | ⟨f, g, r, hd, _⟩ | ⟨_, he⟩
      · exact .supposedDestructor hm hK hd
      · have := ho.oneDestructor n.name
        rw [hd] at this; simp at this
      · rw [he] at hu; exact asDeclared_sound apis ho _ _ (by simp) l hu
    · rw [hD.copy] at hu; exact asDeclared_sound apis ho _ _ (by simp) l hu
    · rw [hD.move] at hu; exact asDeclared_sound apis ho _ _ (by simp) l hu

/-- **C13/C14 (soundness)**: for every set of class definitions without the peculiarities excluded by
`Ordinary`, nested and derived to any depth: a default constructor, destructor or copy constructor which
is recorded as usable (by anyone, or by derived classes) is indeed there in C++, not deleted, and
accessible; and so is a move constructor of a class which can be destroyed. -/
theorem special_members_sound_partial (apis : List FnPre1Api) (hn : (apis.map (·.name)).Nodup)
    (hf : FieldsRecorded apis) (ho : Ordinary apis) (found : AMap QName ItemsFound)
    (h : findConstructorsPresent apis = some found) (c : QName) (i : ItemsFound)
    (hi : found.get? c = some i) : SoundFor apis c i.members := by
  have hent := (special_members_partial apis hn hf found h).1
  have hno : ¬ ∃ S : List FnPre1Api, (∀ a ∈ S, a ∈ apis) ∧ Stuck Api.name FnPre1Api.fieldAndBaseDeps S := by
    intro hs
    rw [(special_members_panic_iff apis hn).2 (.inl hs)] at h; cases h
  rcases fields_and_bases_first_spec Api.name FnPre1Api.fieldAndBaseDeps apis hn with
    ⟨out, ho', hperm, hord⟩ | ⟨out, rest, ho', hperm, hst⟩
  · have hall : ∀ k (p s : List FnPre1Api), p.length = k → out = p ++ s →
        ∀ n d a, Api.struct n d a ∈ p → Analysed a →
          ∀ i, found.get? n.name = some i → SoundFor apis n.name i.members := by
      intro k
      induction k with
      | zero =>
        intro p s hl _ n d a hm
        have := List.length_eq_zero_iff.1 hl
        subst this; cases hm
      | succ k ih =>
        intro p s hl e n d a hm ha i hi
        rcases List.eq_nil_or_concat p with rfl | ⟨p', x, rfl⟩
        · cases hl
        rw [List.concat_eq_append] at *
        have e' : out = p' ++ x :: s := by rw [e]; simp
        have ih := ih p' (x :: s) (by simpa using hl) e'
        rcases List.mem_append.1 hm with hm | hm
        · exact ih n d a hm ha i hi
        · have hx := List.mem_singleton.1 hm
          subst hx
          have hmem : Api.struct n d a ∈ apis := hperm.subset (by rw [e']; simp)
          refine sound_step apis hn hf ho found h n d a hmem ha ?_ i hi
          intro q hq j hj
          obtain ⟨n', d', a', hm', ha', hq'⟩ := (hent q).1 ⟨j, hj⟩
          have hdep : q ∈ FnPre1Api.fieldAndBaseDeps (.struct n d a) := by
            simp only [FnPre1Api.fieldAndBaseDeps, List.mem_append]
            rcases hq with hq | ⟨f, hfm, hv, ht⟩
            · exact .inr hq
            · rcases hf n d a hmem f hfm hv q ht with h | h
              · exact .inl h
              · exact absurd hq' (h n' d' a' hm')
          obtain ⟨c, hc, hce⟩ := hord p' _ s e' _ hm' (by
            rw [show (Api.struct n' d' a' : FnPre1Api).name = n'.name from rfl, hq']; exact hdep)
          -- the item of that name is the class itself
          have hcs : c = .struct n' d' a' := by
            have hcm : c ∈ apis := hperm.subset (by rw [e']; simp [hc])
            have uniq : ∀ (l : List FnPre1Api), (l.map (·.name)).Nodup → ∀ x ∈ l, ∀ y ∈ l,
                x.name = y.name → x = y := by
              intro l
              induction l with
              | nil => simp
              | cons c l ih =>
                intro hn x hx y hy e
                rw [List.map_cons, List.nodup_cons] at hn
                rcases List.mem_cons.1 hx with hx | hx <;> rcases List.mem_cons.1 hy with hy | hy
                · rw [hx, hy]
                · rw [hx] at e; exact absurd (List.mem_map.2 ⟨y, hy, e.symm⟩) hn.1
                · rw [hy] at e; exact absurd (List.mem_map.2 ⟨x, hx, e⟩) hn.1
                · exact ih hn.2 x hx y hy e
            exact uniq apis hn c hcm _ hm' hce
          subst hcs
          rw [← hq'] at hj ⊢
          exact ih n' d' a' hc ha' j hj
    obtain ⟨n, d, a, hm, ha, rfl⟩ := (hent c).1 ⟨i, hi⟩
    exact hall out.length out [] rfl (by simp) n d a (hperm.symm.subset hm) ha i hi
  · exact absurd ⟨rest, fun a ha => hperm.subset (by simp [ha]), hst⟩ hno

/-! ## What is synthesized -/

/-- The state of a special member. -/
def Members.state (m : Members) : SpecialMemberKind → SpecialMemberFound
  | .defaultConstructor => m.dflt
  | .copyConstructor => m.copy
  | .moveConstructor => m.move
  | .destructor => m.dtor
  | .assignmentOperator => .notPresent

theorem findConstructorsPresent_wf (apis : List FnPre1Api) (found : AMap QName ItemsFound)
    (h : findConstructorsPresent apis = some found) : AMap.WF found := by
  have loop : ∀ (ex : Explicits) (un en : List QName) (l : List FnPre1Api) (m m' : AMap QName ItemsFound),
      AMap.WF m → l.foldl (classStep ex un en) (some m) = some m' → AMap.WF m' := by
    intro ex un en l
    induction l with
    | nil => intro m m' hm h; cases h; exact hm
    | cons a l ih =>
      intro m m' hm h
      rw [List.foldl_cons] at h
      cases hs : classStep ex un en (some m) a with
      | none => rw [hs, classLoop_none] at h; cases h
      | some m1 =>
        rw [hs] at h
        refine ih m1 m' ?_ h
        unfold classStep at hs
        split at hs
        · split at hs
          · simp only [Option.bind_some] at hs
            cases hc : classItems ex un en m _ _ _ with
            | none => rw [hc] at hs; cases hs
            | some i =>
              rw [hc] at hs
              simp only [Option.bind_some] at hs
              split at hs
              · cases hs
              · cases hs; exact AMap.insert_wf hm _ _
          · cases hs; exact hm
        · cases hs; exact hm
  unfold findConstructorsPresent at h
  cases hx : findExplicitItems apis with
  | none => rw [hx] at h; cases h
  | some r =>
    rw [hx] at h
    simp only [Option.bind_some] at h
    split at h
    · exact loop _ _ _ _ _ _ AMap.nil_wf h
    · cases h

theorem existsImplicit_iff (s : SpecialMemberFound) : s.existsImplicit = true ↔ s = .implicit := by
  cases s <;> simp [SpecialMemberFound.existsImplicit]

/-- **C14 (which members are made up)**: a special member of a class is synthesized if and only if it was
found to exist implicitly, and neither are all implementations excluded nor the constructors of this
class blocked. -/
theorem synthesized_iff (cfg : Config) (apis : List FnPre1Api) (hn : (apis.map (·.name)).Nodup)
    (hf : FieldsRecorded apis) (found : AMap QName ItemsFound)
    (h : findConstructorsPresent apis = some found) (c : QName) (k : SpecialMemberKind) :
    (c, k) ∈ synthesized cfg found ↔
      cfg.excludeImpls = false ∧ cfg.isOnConstructorBlocklist c.toCppName = false ∧
      ∃ i, found.get? c = some i ∧ i.members.state k = .implicit := by
  have hwf := findConstructorsPresent_wf apis found h
  have hsp := special_members_partial apis hn hf found h
  have hnc : ∀ i, found.get? c = some i → i.nonConstCopy = .notPresent := by
    intro i hi
    obtain ⟨n, d, a, hm, ha, rfl⟩ := (hsp.1 c).1 ⟨i, hi⟩
    obtain ⟨j, hj, _, h', _⟩ := hsp.2 n d a hm ha
    rw [hi] at hj; cases hj; exact h'
  have hmem : ∀ i, i.nonConstCopy = .notPresent →
      (k ∈ membersNeeded i ↔ i.members.state k = .implicit) := by
    intro i hi
    unfold membersNeeded ItemsFound.defaultNeeded ItemsFound.moveNeeded ItemsFound.destructorNeeded
      ItemsFound.copyNeeded
    rw [hi]
    obtain ⟨s1, s2, s3, s4, s5, nm⟩ := i
    cases k <;> cases s1 <;> cases s2 <;> cases s3 <;> cases s5 <;>
      simp [SpecialMemberFound.existsImplicit, SpecialMemberFound.existsExplicit, Members.state,
        ItemsFound.members]
  unfold synthesized
  rw [List.mem_flatMap]
  constructor
  · rintro ⟨⟨ty, i⟩, hi, hk⟩
    simp only at hk
    split at hk
    · cases hk
    · rename_i hb
      obtain ⟨k', hk', e⟩ := List.mem_map.1 hk
      cases e
      simp only [Bool.or_eq_true, not_or, Bool.not_eq_true] at hb
      have hg := AMap.mem_get? hwf hi
      exact ⟨hb.1, hb.2, i, hg, (hmem i (hnc i hg)).1 hk'⟩
  · rintro ⟨h1, h2, i, hi, hs⟩
    refine ⟨(c, i), AMap.get?_mem hi, ?_⟩
    simp only [h1, h2, Bool.or_self, Bool.false_eq_true, if_false]
    exact List.mem_map.2 ⟨k, (hmem i (hnc i hi)).2 hs, rfl⟩

/-- The kind of member of C++ that is. -/
def SpecialMemberKind.memberKind : SpecialMemberKind → MemberKind
  | .defaultConstructor => .defaultCtor
  | .copyConstructor => .copyCtor
  | .moveConstructor => .moveCtor
  | .destructor => .destructor
  | .assignmentOperator => .assignment

/-- **C14**: no special member which C++ lacks (or has deleted or hidden) is made up: for all classes
without the peculiarities excluded by `Ordinary`, each synthesized default constructor, copy constructor
and destructor can be called by anyone, and so can each synthesized move constructor of a class which can
be destroyed. -/
theorem synthesized_sound_partial (cfg : Config) (apis : List FnPre1Api)
    (hn : (apis.map (·.name)).Nodup) (hf : FieldsRecorded apis) (ho : Ordinary apis)
    (found : AMap QName ItemsFound) (h : findConstructorsPresent apis = some found) (c : QName)
    (k : SpecialMemberKind) (hk : (c, k) ∈ synthesized cfg found)
    (hd : k = .moveConstructor → ∃ i, found.get? c = some i ∧ UsableInDerived i.members.dtor) :
    CppHas apis c k.memberKind .anyone := by
  obtain ⟨_, _, i, hi, hs⟩ := (synthesized_iff cfg apis hn hf found h c k).1 hk
  have hsound := special_members_sound_partial apis hn hf ho found h c i hi .anyone
  have hu : UsableAt .anyone (i.members.state k) := by rw [hs]; exact usableAt_implicit _
  cases k with
  | defaultConstructor => exact hsound.1 hu
  | copyConstructor => exact hsound.2.2.1 hu
  | moveConstructor =>
    obtain ⟨j, hj, hdj⟩ := hd rfl
    rw [hi] at hj; cases hj
    exact hsound.2.2.2 hdj hu
  | destructor => exact hsound.2.1 hu
  | assignmentOperator => cases hs

/-- **C14 (what later phases are told)**: a class is recorded as movable, and as destructible, exactly if
anyone can call the member found. -/
theorem public_constructors_iff (i : ItemsFound) :
    ((publicConstructors i).moveConstructor = true ↔ Usable i.members.move) ∧
    ((publicConstructors i).destructor = true ↔ Usable i.members.dtor) :=
  ⟨callableAny_iff _, callableAny_iff _⟩

/-! ## Examples -/

/-- Items each of which comes after what it depends on. -/
def inOrder : List FnPre1Api → Bool
  | [] => true
  | a :: l => (FnPre1Api.fieldAndBaseDeps a).all (fun d => !((a :: l).map (·.name)).contains d) && inOrder l

theorem fieldsAndBasesFirst_inOrder (l : List FnPre1Api) (hn : (l.map (·.name)).Nodup)
    (h : inOrder l = true) : fieldsAndBasesFirst Api.name FnPre1Api.fieldAndBaseDeps l = .ok l := by
  unfold fieldsAndBasesFirst
  induction l with
  | nil => unfold dfRun; rfl
  | cons a l ih =>
    rw [inOrder, Bool.and_eq_true] at h
    rw [List.map_cons, List.nodup_cons] at hn
    have hnext : dfNext Api.name FnPre1Api.fieldAndBaseDeps ((a :: l).map Api.name) (a :: l) = .yield a l := by
      unfold dfNext dfScan
      rw [if_neg, List.append_nil]
      intro hc
      obtain ⟨d, hd, hy⟩ := List.any_eq_true.1 hc
      have := List.all_eq_true.1 h.1 d hd
      simp only [decide_eq_true_eq] at hy
      simp only [Bool.not_eq_true', ] at this
      rw [List.contains_iff_mem.2 hy] at this; cases this
    have hfil : ((a :: l).map Api.name).filter (· ≠ a.name) = l.map Api.name := by
      simp only [List.map_cons, ne_eq, decide_not]
      rw [List.filter_cons_of_neg (by simp)]
      rw [List.filter_eq_self]
      intro q hq
      simp only [Bool.not_eq_true', decide_eq_false_iff_not]
      intro e; subst e; exact hn.1 hq
    rw [dfRun]
    split
    · rename_i b q he
      rw [hnext] at he; cases he
      rw [hfil, ih hn.2 h.2]; rfl
    all_goals (rename_i he; rw [hnext] at he; cases he)

/-- `constructorDetails`, looked up in the evaluated database. -/
def constructorDetailsLit (q : QName) : Option (Bool × Bool) :=
  (knownTypesLit.get q).map fun d => (d.hasMoveConstructor, d.hasConstCopyConstructor)

theorem constructorDetails_lit (q : QName) : constructorDetails q = constructorDetailsLit q := by
  rw [constructorDetails, knownGet_eq_lit]; rfl

/-- `getItemsFound`, with the evaluated database. -/
def getItemsFoundLit (enums : List QName) (n : ApiName) (found : AMap QName ItemsFound) (q : QName) :
    Option ItemsFound :=
  if q ∈ enums then some (scalarItems n)
  else
    match constructorDetailsLit q with
    | some d => some (knownTypeItems d)
    | none => found.get? q

theorem getItemsFound_lit : getItemsFound = getItemsFoundLit := by
  funext en n m q
  unfold getItemsFound getItemsFoundLit
  rw [constructorDetails_lit]
  rfl

/-- `classItems`, with the evaluated database. -/
def classItemsLit (explicits : Explicits) (unknown enums : List QName) (found : AMap QName ItemsFound)
    (n : ApiName) (d : StructDetails) (a : PodAnalysis) : Option ItemsFound :=
  let find := fun k => explicits.get? (n.name, k)
  let get := getItemsFoundLit enums n found
  let bases := mapWhile get a.bases
  (fieldsItems get n a.fieldInfo).map fun fields =>
    if bases.length ≠ a.bases.length ∨ fields.length ≠ a.fieldInfo.length ∨ n.name ∈ unknown then
      explicitOnly find n
    else fullItems find n d.hasRvalueReferenceFields bases fields

theorem classItems_lit : classItems = classItemsLit := by
  funext ex un en m n d a
  unfold classItems
  rw [getItemsFound_lit]
  rfl

/-- `classStep`, with the evaluated database. -/
def classStepLit (explicits : Explicits) (unknown enums : List QName) (st : Option (AMap QName ItemsFound)) :
    FnPre1Api → Option (AMap QName ItemsFound)
  | .struct n d a =>
    if analysed a then
      st.bind fun found =>
        (classItemsLit explicits unknown enums found n d a).bind fun i =>
          if (found.get? n.name).isSome then none else some (found.insert n.name i)
    else st
  | _ => st

theorem classStep_lit : classStep = classStepLit := by
  funext ex un en st a
  unfold classStep classStepLit
  rw [classItems_lit]
  rfl

/-- `find_constructors_present` on items which are already in order. -/
def findInOrder (apis : List FnPre1Api) : Option (AMap QName ItemsFound) :=
  (findExplicitItems apis).bind fun (ex, un) => apis.foldl (classStepLit ex un (enumNames apis)) (some [])

theorem find_eq_inOrder (apis : List FnPre1Api) (hn : (apis.map (·.name)).Nodup)
    (h : inOrder apis = true) : findConstructorsPresent apis = findInOrder apis := by
  unfold findConstructorsPresent findInOrder
  rw [fieldsAndBasesFirst_inOrder apis hn h, classStep_lit]

/-- The entry of a class. -/
def entryOf (apis : List FnPre1Api) (c : QName) : Option Members :=
  ((findInOrder apis).bind fun m => m.get? c).map (·.members)

theorem entry_of {apis : List FnPre1Api} {c : QName} {m : Members} (hn : (apis.map (·.name)).Nodup)
    (h : inOrder apis = true) (he : entryOf apis c = some m) :
    ∃ found i, findConstructorsPresent apis = some found ∧ found.get? c = some i ∧ i.members = m := by
  rw [find_eq_inOrder apis hn h]
  unfold entryOf at he
  cases hf : findInOrder apis with
  | none => rw [hf] at he; cases he
  | some found =>
    rw [hf] at he
    simp only [Option.bind_some] at he
    cases hg : found.get? c with
    | none => rw [hg] at he; cases he
    | some i => rw [hg] at he; cases he; exact ⟨found, i, rfl, hg, rfl⟩

theorem CppHas.default_inv {apis : List FnPre1Api} {q : QName} {l : Level}
    (h : CppHas apis q .defaultCtor l) (hen : ∀ n d, Api.enum n d ∈ apis → n.name ≠ q)
    (hk : constructorDetails q = none) :
    (∃ f, declarations q .defaultCtor apis = [f] ∧ f.isDeleted = none) ∨
    ∃ n d a, Api.struct n d a ∈ apis ∧ n.name = q ∧
      ((∀ k ∈ [MemberKind.defaultCtor, .copyCtor, .moveCtor, .otherCtor], declarations q k apis = []) ∨
        Defaulted apis q .defaultCtor l) ∧
      ∀ f ∈ a.fieldInfo, f.ByValue → ∀ q, HoldsType f.ty q → CppHas apis q .defaultCtor .anyone := by
  generalize hkk : MemberKind.defaultCtor = k at h
  cases h with
  | enum n d h hq => exact absurd hq (hen n d h)
  | knownDefault h => rw [hk] at h; cases h
  | knownDestructor h => cases hkk
  | knownCopy h => cases hkk
  | knownMove h => cases hkk
  | declared f h hd hv => subst hkk; exact .inl ⟨f, h, hd⟩
  | implicitDefault h hk hdecl href hrv hb hf =>
    exact .inr ⟨_, _, _, h, rfl, hdecl, fun f hm hv q hq => hf f hm hv q hq _ (by simp)⟩
  | implicitDestructor => cases hkk
  | implicitCopy => cases hkk
  | implicitMove => cases hkk
  | supposedDestructor => cases hkk

theorem CppHas.copy_inv {apis : List FnPre1Api} {q : QName} {l : Level}
    (h : CppHas apis q .copyCtor l) (hen : ∀ n d, Api.enum n d ∈ apis → n.name ≠ q)
    (hk : constructorDetails q = none) (hd : declarations q .copyCtor apis = []) :
    ¬ DeclaresNonConstCopy apis q ∧ ¬ DeclaresMoveAssignment apis q := by
  generalize hkk : MemberKind.copyCtor = k at h
  cases h with
  | enum n d h hq => exact absurd hq (hen n d h)
  | knownDefault h => cases hkk
  | knownDestructor h => cases hkk
  | knownCopy h => rw [hk] at h; cases h
  | knownMove h => cases hkk
  | declared f h _ hv => subst hkk; rw [hd] at h; cases h
  | implicitDefault => cases hkk
  | implicitDestructor => cases hkk
  | implicitCopy h hk hdecl =>
    rcases hdecl with h | ⟨f, h, _⟩
    · exact h.2
    · rw [hd] at h; cases h
  | implicitMove => cases hkk
  | supposedDestructor => cases hkk

theorem CppHas.move_inv {apis : List FnPre1Api} {q : QName} {l : Level}
    (h : CppHas apis q .moveCtor l) (hen : ∀ n d, Api.enum n d ∈ apis → n.name ≠ q)
    (hk : constructorDetails q = none) (hd : declarations q .moveCtor apis = []) :
    ∃ n d a, Api.struct n d a ∈ apis ∧ n.name = q ∧
      ∀ f ∈ a.fieldInfo, f.ByValue → ∀ q, HoldsType f.ty q → CppHas apis q .destructor .anyone := by
  generalize hkk : MemberKind.moveCtor = k at h
  cases h with
  | enum n d h hq => exact absurd hq (hen n d h)
  | knownDefault h => cases hkk
  | knownDestructor h => cases hkk
  | knownCopy h => cases hkk
  | knownMove h => rw [hk] at h; cases h
  | declared f h _ hv => subst hkk; rw [hd] at h; cases h
  | implicitDefault => cases hkk
  | implicitDestructor => cases hkk
  | implicitCopy => cases hkk
  | implicitMove h hk hdecl hb hf =>
    exact ⟨_, _, _, h, rfl, fun f hm hv q hq => hf f hm hv q hq _ (by simp)⟩
  | supposedDestructor => cases hkk

theorem CppHas.destructor_inv {apis : List FnPre1Api} {q : QName} {l : Level} {f : FuncToConvert}
    (h : CppHas apis q .destructor l) (hen : ∀ n d, Api.enum n d ∈ apis → n.name ≠ q)
    (hk : constructorDetails q = none) (hd : declarations q .destructor apis = [f])  :
    Accessible f.cppVis l := by
  generalize hkk : MemberKind.destructor = k at h
  cases h with
  | enum n d h hq => exact absurd hq (hen n d h)
  | knownDefault h => cases hkk
  | knownDestructor h => rw [hk] at h; cases h
  | knownCopy h => cases hkk
  | knownMove h => cases hkk
  | declared g h _ hv => subst hkk; rw [hd] at h; cases h; exact hv
  | implicitDefault => cases hkk
  | implicitDestructor h hk hdecl =>
    rcases hdecl with h | ⟨g, h, _, hv⟩
    · rw [hd] at h; cases h
    · rw [hd] at h; cases h; exact hv
  | implicitCopy => cases hkk
  | implicitMove => cases hkk
  | supposedDestructor h hk hdecl => rw [hd] at hdecl; cases hdecl

/-- A class of the examples. -/
def exClass (c : Ident) (a : PodAnalysis) : FnPre1Api := .struct { name := ⟨[], c⟩ } {} a

/-- A member function of the examples. -/
def exFn (nm : Ident) (f : FuncToConvert) (a : FnAnalysis) : FnPre1Api := .function { name := ⟨[], nm⟩ } f a

/-- `class A { A& operator=(A&&); };` -/
def exMoveAssign : List FnPre1Api :=
  [exClass "A" {},
   exFn "A_operator_equals"
     { specialMember := some .assignmentOperator
       inputs := [.typed "this" (.ptr true (.path ["output", "A"] [])),
         .typed "other" (.path ["__bindgen_marker_RValueReference"] [.ptr true (.path ["output", "A"] [])])] }
     { kind := .method .normal ⟨[], "A"⟩
       paramDetails := [{ selfType := some (⟨[], "A"⟩, .mutable) }, {}]
       ignoreReason := some ⟨.assignmentOperator, none⟩ }]

/-- **C13/C14 are false**: a class with a move assignment operator is recorded to have an implicit copy
constructor (and one is synthesized), whereas in C++ it is deleted. -/
theorem move_assignment_false :
    (∃ found i, findConstructorsPresent exMoveAssign = some found ∧
      found.get? ⟨[], "A"⟩ = some i ∧ i.members.copy = .implicit ∧
      (⟨[], "A"⟩, SpecialMemberKind.copyConstructor) ∈ synthesized {} found) ∧
    ¬ CppHas exMoveAssign ⟨[], "A"⟩ .copyCtor .anyone := by
  have hn : (exMoveAssign.map (·.name)).Nodup := by decide
  refine ⟨?_, ?_⟩
  · obtain ⟨found, i, h1, h2, h3⟩ := entry_of (apis := exMoveAssign) (c := ⟨[], "A"⟩)
      (m := ⟨.implicit, .implicit, .implicit, .notPresent⟩) hn (by decide) (by decide +kernel)
    refine ⟨found, i, h1, h2, by rw [h3], ?_⟩
    refine (synthesized_iff {} exMoveAssign hn ?_ found h1 _ _).2 ⟨rfl, by decide, i, h2, by rw [h3]; rfl⟩
    intro n d a hm f hf
    simp only [exMoveAssign, exClass, exFn, List.mem_cons, List.not_mem_nil, or_false, reduceCtorEq,
      Api.struct.injEq] at hm
    obtain ⟨_, _, rfl⟩ := hm
    cases hf
  · intro h
    refine (h.copy_inv (by simp [exMoveAssign, exClass, exFn]) (by rw [constructorDetails_lit]; decide +kernel) (by decide)).2 ?_
    exact ⟨_, .head _, _, _, _, .tail _ (.head _)⟩

/-- `class A { A(A&); };` -/
def exNonConstCopy : List FnPre1Api :=
  [exClass "A" {}, exFn "A_A" { specialMember := some .copyConstructor }
    { kind := .method (.constructor false) ⟨[], "A"⟩ }]

/-- **C13/C14 are false**: a class with a copy constructor from a non-const reference is recorded to have
an implicit const copy constructor, which in C++ it has not. -/
theorem non_const_copy_false :
    (∃ found i, findConstructorsPresent exNonConstCopy = some found ∧
      found.get? ⟨[], "A"⟩ = some i ∧ i.members.copy = .implicit) ∧
    ¬ CppHas exNonConstCopy ⟨[], "A"⟩ .copyCtor .anyone := by
  have hn : (exNonConstCopy.map (·.name)).Nodup := by decide
  refine ⟨?_, ?_⟩
  · obtain ⟨found, i, h1, h2, h3⟩ := entry_of (apis := exNonConstCopy) (c := ⟨[], "A"⟩)
      (m := ⟨.notPresent, .implicit, .implicit, .implicit⟩) hn (by decide) (by decide +kernel)
    exact ⟨found, i, h1, h2, by rw [h3]⟩
  · intro h
    refine (h.copy_inv (by simp [exNonConstCopy, exClass, exFn]) (by rw [constructorDetails_lit]; decide +kernel) (by decide)).1 ?_
    exact ⟨_, .head _, rfl⟩

/-- A class with a field of class `B`. -/
def exHoldsB : PodAnalysis :=
  { fieldInfo := [{ ty := .path ["output", "B"] [] }], fieldDefinitionDeps := [⟨[], "B"⟩] }

theorem exHoldsB_holds : ∀ f ∈ exHoldsB.fieldInfo, f.ByValue ∧ HoldsType f.ty ⟨[], "B"⟩ := by
  intro f hf
  simp only [exHoldsB, List.mem_singleton] at hf
  subst hf
  exact ⟨.inl rfl, _, _, .inl rfl, rfl⟩

/-- `class B { B(int); }; class A { A() = default; B b; };` -/
def exDefaulted : List FnPre1Api :=
  [exClass "B" {}, exFn "B_B" {} { kind := .method (.constructor false) ⟨[], "B"⟩ },
   exClass "A" exHoldsB, exFn "A_A" { specialMember := some .defaultConstructor, isDeleted := some .defaulted }
    { kind := .method (.constructor true) ⟨[], "A"⟩ }]

/-- **C13/C14 are false**: a default constructor declared with `= default` is recorded as usable although
in C++ it is deleted, because a member cannot be default constructed. -/
theorem defaulted_member_false :
    (∃ found i, findConstructorsPresent exDefaulted = some found ∧
      found.get? ⟨[], "A"⟩ = some i ∧ Usable i.members.dflt) ∧
    ¬ CppHas exDefaulted ⟨[], "A"⟩ .defaultCtor .anyone := by
  have hn : (exDefaulted.map (·.name)).Nodup := by decide
  refine ⟨?_, ?_⟩
  · obtain ⟨found, i, h1, h2, h3⟩ := entry_of (apis := exDefaulted) (c := ⟨[], "A"⟩)
      (m := ⟨.explicit .pub, .implicit, .implicit, .implicit⟩) hn (by decide) (by decide +kernel)
    exact ⟨found, i, h1, h2, by rw [h3]; exact .inr rfl⟩
  · intro h
    have hen : ∀ q n d, Api.enum n d ∈ exDefaulted → n.name ≠ q := by
      intro q n d h; simp [exDefaulted, exClass, exFn] at h
    rcases h.default_inv (hen _) (by rw [constructorDetails_lit]; decide +kernel) with ⟨f, hf, hd⟩ | ⟨n, d, a, hm, hq, _, hfs⟩
    · rw [show declarations ⟨[], "A"⟩ .defaultCtor exDefaulted =
        [{ specialMember := some .defaultConstructor, isDeleted := some .defaulted }] from by decide] at hf
      cases hf; cases hd
    · have hB : CppHas exDefaulted ⟨[], "B"⟩ .defaultCtor .anyone := by
        simp only [exDefaulted, exClass, exFn, List.mem_cons, List.not_mem_nil, or_false, reduceCtorEq,
          false_or, Api.struct.injEq] at hm
        rcases hm with ⟨rfl, _⟩ | ⟨_, _, rfl⟩
        · simp at hq
        · exact hfs _ (.head _) (exHoldsB_holds _ (.head _)).1 _ (exHoldsB_holds _ (.head _)).2
      rcases hB.default_inv (hen _) (by rw [constructorDetails_lit]; decide +kernel) with ⟨f, hf, _⟩ | ⟨n, d, a, _, _, hd, _⟩
      · rw [show declarations ⟨[], "B"⟩ .defaultCtor exDefaulted = [] from by decide] at hf; cases hf
      · rcases hd with hd | ⟨f, hf, _⟩
        · exact absurd (hd .otherCtor (by simp)) (by decide)
        · rw [show declarations ⟨[], "B"⟩ .defaultCtor exDefaulted = [] from by decide] at hf; cases hf

/-- `class B { public: B(B&&); private: ~B(); }; class A { B b; };` -/
def exPrivateDtor : List FnPre1Api :=
  [exClass "B" {}, exFn "B_B" { specialMember := some .moveConstructor }
     { kind := .traitMethod .moveConstructor ⟨[], "B"⟩ {} },
   exFn "B_destructor" { specialMember := some .destructor, cppVis := .priv }
     { kind := .traitMethod .destructor ⟨[], "B"⟩ {} },
   exClass "A" exHoldsB]

/-- **C13/C14 are false**: a class with a member that can be moved but not destroyed is recorded to have an
implicit move constructor, and one is synthesized, whereas in C++ it is deleted. -/
theorem move_of_indestructible_false :
    (∃ found i, findConstructorsPresent exPrivateDtor = some found ∧
      found.get? ⟨[], "A"⟩ = some i ∧ i.members.move = .implicit ∧
      (⟨[], "A"⟩, SpecialMemberKind.moveConstructor) ∈ synthesized {} found) ∧
    ¬ CppHas exPrivateDtor ⟨[], "A"⟩ .moveCtor .anyone := by
  have hn : (exPrivateDtor.map (·.name)).Nodup := by decide
  refine ⟨?_, ?_⟩
  · obtain ⟨found, i, h1, h2, h3⟩ := entry_of (apis := exPrivateDtor) (c := ⟨[], "A"⟩)
      (m := ⟨.notPresent, .notPresent, .notPresent, .implicit⟩) hn (by decide) (by decide +kernel)
    refine ⟨found, i, h1, h2, by rw [h3], ?_⟩
    refine (synthesized_iff {} exPrivateDtor hn ?_ found h1 _ _).2 ⟨rfl, by decide, i, h2, by rw [h3]; rfl⟩
    intro n d a hm f hf hv q hq
    simp only [exPrivateDtor, exClass, exFn, List.mem_cons, List.not_mem_nil, or_false, reduceCtorEq,
      false_or, Api.struct.injEq] at hm
    rcases hm with ⟨_, _, rfl⟩ | ⟨_, _, rfl⟩
    · cases hf
    · refine .inl ?_
      rw [holdsType_unique hq (exHoldsB_holds f hf).2]
      exact .head _
  · intro h
    have hen : ∀ q n d, Api.enum n d ∈ exPrivateDtor → n.name ≠ q := by
      intro q n d h; simp [exPrivateDtor, exClass, exFn] at h
    obtain ⟨n, d, a, hm, hq, hfs⟩ := h.move_inv (hen _) (by rw [constructorDetails_lit]; decide +kernel) (by decide)
    have hB : CppHas exPrivateDtor ⟨[], "B"⟩ .destructor .anyone := by
      simp only [exPrivateDtor, exClass, exFn, List.mem_cons, List.not_mem_nil, or_false, reduceCtorEq,
        false_or, Api.struct.injEq] at hm
      rcases hm with ⟨rfl, _⟩ | ⟨_, _, rfl⟩
      · simp at hq
      · exact hfs _ (.head _) (exHoldsB_holds _ (.head _)).1 _ (exHoldsB_holds _ (.head _)).2
    have := hB.destructor_inv (f := { specialMember := some .destructor, cppVis := .priv }) (hen _)
      (by rw [constructorDetails_lit]; decide +kernel) (by decide)
    rcases this with h | ⟨h, _⟩ <;> cases h

/-- `class A { int* p; };` -/
def exPointer : List FnPre1Api :=
  [exClass "A" { fieldInfo := [{ ty := .ptr true (.path ["c_int"] []), typeKind := .pointer }] }]

/-- **C13 is false in the other direction too**: the implicit default constructor of a class with a pointer
among its fields is not recognised. -/
theorem pointer_field_default_false :
    (∃ found i, findConstructorsPresent exPointer = some found ∧
      found.get? ⟨[], "A"⟩ = some i ∧ i.members.dflt = .notPresent) ∧
    CppHas exPointer ⟨[], "A"⟩ .defaultCtor .anyone := by
  have hn : (exPointer.map (·.name)).Nodup := by decide
  refine ⟨?_, ?_⟩
  · obtain ⟨found, i, h1, h2, h3⟩ := entry_of (apis := exPointer) (c := ⟨[], "A"⟩)
      (m := ⟨.notPresent, .implicit, .implicit, .implicit⟩) hn (by decide) (by decide +kernel)
    exact ⟨found, i, h1, h2, by rw [h3]⟩
  · have hv : ∀ f ∈ [({ ty := .ptr true (.path ["c_int"] []), typeKind := .pointer } : FieldInfo)],
        ¬ f.ByValue := by
      intro f hf
      simp only [List.mem_singleton] at hf
      subst hf
      rintro (h | ⟨_, h⟩) <;> cases h
    refine .implicitDefault (n := { name := ⟨[], "A"⟩ }) (d := {})
      (a := { fieldInfo := [{ ty := .ptr true (.path ["c_int"] []), typeKind := .pointer }] }) (.head _)
      ⟨by simp, fun f hf h => absurd h (hv f hf), ?_⟩ (.inl ?_) ?_ rfl (by simp)
      fun f hf h => absurd h (hv f hf)
    · rintro ⟨n, f, a, e, hm, _⟩
      simp [exPointer, exClass] at hm
    · decide
    · intro f hf
      simp only [List.mem_singleton] at hf
      subst hf; decide

/-- `class B {}; class A { B b[2]; };`: as bindgen gives no definition dependency for arrays. -/
def exArray : FnPre1Api :=
  exClass "A" { fieldInfo := [{ ty := .array (.path ["output", "B"] []) "2usize" }] }

/-- **C13 is false without `FieldsRecorded`**: for a class which holds an array of another class, what is
found depends on the order of the two. -/
theorem array_member_order_false :
    (∃ found i, findConstructorsPresent [exClass "B" {}, exArray] = some found ∧
      found.get? ⟨[], "A"⟩ = some i ∧ i.members = ⟨.implicit, .implicit, .implicit, .implicit⟩) ∧
    (∃ found i, findConstructorsPresent [exArray, exClass "B" {}] = some found ∧
      found.get? ⟨[], "A"⟩ = some i ∧ i.members = ⟨.notPresent, .implicit, .notPresent, .notPresent⟩) :=
  ⟨entry_of (by decide) (by decide) (by decide +kernel), entry_of (by decide) (by decide) (by decide +kernel)⟩

/-- `class B { protected: B(); }; class A : B { std::string s; };` -/
def exDerived : List FnPre1Api :=
  [exClass "B" {}, exFn "B_B" { specialMember := some .defaultConstructor, cppVis := .prot }
     { kind := .method (.constructor true) ⟨[], "B"⟩ },
   exClass "A" { bases := [⟨[], "B"⟩], fieldInfo := [{ ty := .path ["cxx", "CxxString"] [] }] }]

/-- The hypotheses of the theorems above are satisfied by a class with a base and a field. -/
example : (exDerived.map (·.name)).Nodup ∧ FieldsRecorded exDerived ∧ Ordinary exDerived ∧
    ∃ found i, findConstructorsPresent exDerived = some found ∧ found.get? ⟨[], "A"⟩ = some i ∧
      i.members = ⟨.implicit, .implicit, .implicit, .implicit⟩ := by
  have hd : ∀ c k f, f ∈ declarations c k exDerived →
      f = { specialMember := some .defaultConstructor, cppVis := .prot } := by
    intro c k f h
    simp only [exDerived, exClass, exFn, declarations] at h
    split at h
    · simpa using h
    · cases h
  refine ⟨by decide, ?_, ?_, entry_of (by decide) (by decide) (by decide +kernel)⟩
  · intro n d a hm f hf hv q hq
    refine .inr fun n' d' a' hm' e => ?_
    have hfield : a = { bases := [⟨[], "B"⟩], fieldInfo := [{ ty := .path ["cxx", "CxxString"] [] }] } ∨
        a = {} := by
      simp only [exDerived, exClass, exFn, List.mem_cons, List.not_mem_nil, or_false, reduceCtorEq,
        false_or, Api.struct.injEq] at hm
      rcases hm with ⟨_, _, rfl⟩ | ⟨_, _, rfl⟩
      · exact .inr rfl
      · exact .inl rfl
    rcases hfield with rfl | rfl
    · simp only [List.mem_singleton] at hf
      subst hf
      obtain ⟨s, g, hs, hq⟩ := hq
      rcases hs with hs | ⟨_, hs⟩ <;> cases hs
      simp only [exDerived, exClass, exFn, List.mem_cons, List.not_mem_nil, or_false, reduceCtorEq,
        false_or, Api.struct.injEq] at hm'
      rw [← e] at hq
      rcases hm' with ⟨rfl, _⟩ | ⟨rfl, _⟩ <;> revert hq <;> decide
    · cases hf
  · refine ⟨?_, ?_, ?_, ?_⟩
    · rintro c k _ l ⟨f, hf, hx, _⟩
      rw [hd c k f (by rw [hf]; simp)] at hx; cases hx
    · intro c
      simp only [exDerived, exClass, exFn, declarations]
      split <;> simp
    · rintro c ⟨f, hf, n, t, g, ht⟩
      rw [hd c _ f hf] at ht; cases ht
    · rintro c ⟨f, hf, hs⟩
      rw [hd c _ f hf] at hs; cases hs

end Verif
