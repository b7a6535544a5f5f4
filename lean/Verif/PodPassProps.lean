import Verif.TypedefPassProps
import Verif.ByValueProps
import Verif.ConfigProps

/-!
# Properties of the POD pass
-/

set_option autoImplicit false

namespace Verif

/-! ### Fields -/

/-- Converting one field. -/
inductive FieldStep (env : ConvEnv) (fuel : Nat) (ns : List String) (params : List Ident) :
    PassState → (Ident × Bool × Ty) → PassState → (Ident × Except Err (Annotated Ty)) → Prop
  | failed {s : PassState} {id : Ident} {vis : Bool} {ty : Ty} {st : Concretes} {e : Err}
      (h : convertType env ns fuel (.withinStructField params) s.concretes ty = (st, .err e)) :
      FieldStep env fuel ns params s (id, vis, ty) { s with concretes := st } (id, .error e)
  | converted {s : PassState} {id : Ident} {vis : Bool} {ty : Ty} {st : Concretes} {a : Annotated Ty}
      (h : convertType env ns fuel (.withinStructField params) s.concretes ty = (st, .ok a)) :
      FieldStep env fuel ns params s (id, vis, ty) { concretes := st, extra := s.extra.extend a.extra } (id, .ok a)

/-- A field which stands for a base class, or for padding. -/
def BaseOrPadding (id : Ident) : Prop := (∃ r, id = "_base" ++ r) ∨ ∃ r, id = "__bindgen_padding" ++ r

theorem isBaseOrPadding_iff (id : Ident) : isBaseOrPadding id = true ↔ BaseOrPadding id := by
  simp only [isBaseOrPadding, Bool.or_eq_true, startsWith_iff_append]
  rfl

/-- What is recorded about the fields of a struct, given what became of each. -/
structure FieldsSpec (out : List (Ident × Except Err (Annotated Ty))) (fs : Fields) : Prop where
  info : fs.info = (out.filter fun o => !isBaseOrPadding o.1).filterMap fun o => match o.2 with
    | .ok a => some ⟨a.ty, a.kind, o.1 = "_bindgen_opaque_blob"⟩
    | .error _ => none
  errs : fs.errs = out.filterMap fun o => match o.2 with
    | .ok _ => none
    | .error e => some e
  deps : ∀ q, q ∈ fs.deps ↔ ∃ id a, (id, .ok a) ∈ out ∧ ¬ BaseOrPadding id ∧ q ∈ a.deps
  definitions : ∀ q, q ∈ fs.definitionDeps ↔ ∃ id a segs args, (id, .ok a) ∈ out ∧ ¬ BaseOrPadding id ∧
    a.ty = .path segs args ∧ QName.ofTypePath segs = some q

/-- The same with what was recorded before. -/
structure FieldsMore (acc : Fields) (out : List (Ident × Except Err (Annotated Ty))) (fs : Fields) : Prop where
  info : fs.info = acc.info ++ (out.filter fun o => !isBaseOrPadding o.1).filterMap fun o => match o.2 with
    | .ok a => some ⟨a.ty, a.kind, o.1 = "_bindgen_opaque_blob"⟩
    | .error _ => none
  errs : fs.errs = acc.errs ++ out.filterMap fun o => match o.2 with
    | .ok _ => none
    | .error e => some e
  deps : ∀ q, q ∈ fs.deps ↔ q ∈ acc.deps ∨ ∃ id a, (id, .ok a) ∈ out ∧ ¬ BaseOrPadding id ∧ q ∈ a.deps
  definitions : ∀ q, q ∈ fs.definitionDeps ↔ q ∈ acc.definitionDeps ∨
    ∃ id a segs args, (id, .ok a) ∈ out ∧ ¬ BaseOrPadding id ∧ a.ty = .path segs args ∧
      QName.ofTypePath segs = some q

theorem mem_setInsert' {α : Type} [DecidableEq α] (l : List α) (a x : α) : x ∈ setInsert l a ↔ x ∈ l ∨ x = a := by
  unfold setInsert
  split
  · rename_i h
    constructor
    · exact .inl
    · rintro (h' | rfl)
      · exact h'
      · exact h
  · simp

theorem mem_foldl_setInsert' {α : Type} [DecidableEq α] (m l : List α) (x : α) :
    x ∈ m.foldl setInsert l ↔ x ∈ l ∨ x ∈ m := by
  induction m generalizing l with
  | nil => simp
  | cons a m ih => rw [List.foldl_cons, ih, mem_setInsert', List.mem_cons, or_assoc]

theorem fieldTypes_done {env : ConvEnv} {fuel : Nat} {ns : List String} {params : List Ident}
    {l : List (Ident × Bool × Ty)} {s s' : PassState} {acc fs : Fields}
    (h : fieldTypes env fuel ns params s acc l = (s', .done fs)) :
    ∃ out, Thread (FieldStep env fuel ns params) s l s' out ∧ FieldsMore acc out fs := by
  induction l generalizing s acc with
  | nil =>
    cases h
    exact ⟨[], .nil, ⟨by simp, by simp, by simp, by simp⟩⟩
  | cons f l ih =>
    obtain ⟨id, vis, ty⟩ := f
    rw [fieldTypes.eq_def] at h
    dsimp only at h
    cases hc : convertType env ns fuel (.withinStructField params) s.concretes ty with
    | mk st r =>
      rw [hc] at h
      cases r with
      | panic => cases h
      | outOfFuel => cases h
      | err e =>
        simp only [CRes.toRun] at h
        obtain ⟨out, ht, hi, he, hd, hf⟩ := ih h
        refine ⟨_, .cons (.failed hc) ht, ⟨?_, ?_, ?_, ?_⟩⟩
        · rw [hi]
          cases hbp : isBaseOrPadding id <;> simp [List.filter_cons, hbp]
        · rw [he]; simp
        · intro q; rw [hd]; simp
        · intro q; rw [hf]; simp
      | ok a =>
        simp only [CRes.toRun] at h
        by_cases hb : isBaseOrPadding id = true
        · rw [if_pos hb] at h
          have hb' := (isBaseOrPadding_iff id).1 hb
          obtain ⟨out, ht, hi, he, hd, hf⟩ := ih h
          refine ⟨_, .cons (.converted hc) ht, ⟨?_, ?_, ?_, ?_⟩⟩
          · rw [hi]; simp [List.filter_cons, hb]
          · rw [he]; simp
          · intro q; rw [hd]
            refine or_congr Iff.rfl ⟨?_, ?_⟩
            · rintro ⟨i, b, hm, h1, h2⟩; exact ⟨i, b, by simp [hm], h1, h2⟩
            · rintro ⟨i, b, hm, h1, h2⟩
              rcases List.mem_cons.1 hm with e | hm
              · cases e; exact absurd hb' h1
              · exact ⟨i, b, hm, h1, h2⟩
          · intro q; rw [hf]
            refine or_congr Iff.rfl ⟨?_, ?_⟩
            · rintro ⟨i, b, s1, a1, hm, h1, h2⟩; exact ⟨i, b, s1, a1, by simp [hm], h1, h2⟩
            · rintro ⟨i, b, s1, a1, hm, h1, h2⟩
              rcases List.mem_cons.1 hm with e | hm
              · cases e; exact absurd hb' h1
              · exact ⟨i, b, s1, a1, hm, h1, h2⟩
        · rw [if_neg hb] at h
          have hb' : ¬ BaseOrPadding id := fun h => hb ((isBaseOrPadding_iff id).2 h)
          have hbf : isBaseOrPadding id = false := by simpa using hb
          -- both kinds of types record the same, apart from the definitions
          have key : ∀ {defs : List QName},
              fieldTypes env fuel ns params { concretes := st, extra := s.extra.extend a.extra }
                { acc with deps := a.deps.foldl setInsert acc.deps, definitionDeps := defs,
                           info := acc.info ++ [⟨a.ty, a.kind, id = "_bindgen_opaque_blob"⟩] } l = (s', .done fs) →
              (∀ q, q ∈ defs ↔ q ∈ acc.definitionDeps ∨ ∃ segs args, a.ty = .path segs args ∧
                QName.ofTypePath segs = some q) →
              ∃ out, Thread (FieldStep env fuel ns params) s ((id, vis, ty) :: l) s' out ∧ FieldsMore acc out fs := by
            intro defs h hdefs
            obtain ⟨out, ht, hi, he, hd, hf⟩ := ih h
            refine ⟨_, .cons (.converted hc) ht, ⟨?_, ?_, ?_, ?_⟩⟩
            · rw [hi]; simp [List.filter_cons, hbf]
            · rw [he]; simp
            · intro q; rw [hd, mem_foldl_setInsert', or_assoc]
              refine or_congr Iff.rfl ⟨?_, ?_⟩
              · rintro (h1 | ⟨i, b, hm, h1, h2⟩)
                · exact ⟨id, a, by simp, hb', h1⟩
                · exact ⟨i, b, by simp [hm], h1, h2⟩
              · rintro ⟨i, b, hm, h1, h2⟩
                rcases List.mem_cons.1 hm with e | hm
                · cases e; exact .inl h2
                · exact .inr ⟨i, b, hm, h1, h2⟩
            · intro q; rw [hf, hdefs, or_assoc]
              refine or_congr Iff.rfl ⟨?_, ?_⟩
              · rintro (⟨s1, a1, h1, h2⟩ | ⟨i, b, s1, a1, hm, h1, h2⟩)
                · exact ⟨id, a, s1, a1, by simp, hb', h1, h2⟩
                · exact ⟨i, b, s1, a1, by simp [hm], h1, h2⟩
              · rintro ⟨i, b, s1, a1, hm, h1, h2, h3⟩
                rcases List.mem_cons.1 hm with e | hm
                · cases e; exact .inl ⟨s1, a1, h2, h3⟩
                · exact .inr ⟨i, b, s1, a1, hm, h1, h2, h3⟩
          cases hty : a.ty with
          | path segs args =>
            rw [hty] at h
            dsimp only at h
            cases hq : QName.ofTypePath segs with
            | none => rw [hq] at h; cases h
            | some q =>
              rw [hq] at h
              dsimp only at h
              rw [← hty] at h
              refine key h fun x => ?_
              rw [mem_setInsert']
              refine or_congr Iff.rfl ⟨?_, ?_⟩
              · rintro rfl; exact ⟨segs, args, hty, hq⟩
              · rintro ⟨s1, a1, h1, h2⟩
                rw [hty] at h1; cases h1; rw [hq] at h2; cases h2; rfl
          | _ =>
            rw [hty] at h
            dsimp only at h
            rw [← hty] at h
            refine key h fun x => ⟨.inl, ?_⟩
            rintro (h | ⟨s1, a1, h1, h2⟩)
            · exact h
            · rw [hty] at h1; cases h1

theorem fieldTypes_spec {env : ConvEnv} {fuel : Nat} {ns : List String} {params : List Ident}
    {l : List (Ident × Bool × Ty)} {s s' : PassState} {fs : Fields}
    (h : fieldTypes env fuel ns params s {} l = (s', .done fs)) :
    ∃ out, Thread (FieldStep env fuel ns params) s l s' out ∧ FieldsSpec out fs := by
  obtain ⟨out, ht, hi, he, hd, hf⟩ := fieldTypes_done h
  exact ⟨out, ht, ⟨by simpa using hi, by simpa using he, by simpa using hd, by simpa using hf⟩⟩

/-! ### Bases -/

/-- A field stands for the base class `q`, which is public or not. -/
def IsBaseField (f : Ident × Bool × Ty) (q : QName) (vis : Bool) : Prop :=
  ∃ id segs args, f = (id, vis, .path segs args) ∧ (∃ r, id = "_base" ++ r) ∧ QName.ofTypePath segs = some q

/-- The visibility of a base is that of the last field for it. -/
def LastBase (l : List (Ident × Bool × Ty)) (q : QName) (vis : Bool) : Prop :=
  ∃ pre f post, l = pre ++ f :: post ∧ IsBaseField f q vis ∧ ∀ g ∈ post, ∀ c, ¬ IsBaseField g q c

theorem isBaseField_unique {f : Ident × Bool × Ty} {q q' : QName} {v v' : Bool} (h : IsBaseField f q v)
    (h' : IsBaseField f q' v') : q = q' ∧ v = v' := by
  obtain ⟨id, segs, args, rfl, -, h⟩ := h
  obtain ⟨id', segs', args', e, -, h'⟩ := h'
  cases e
  rw [h] at h'
  cases h'
  exact ⟨rfl, rfl⟩

/-- The step of `getBases`. -/
def baseStep (m : Option (AMap QName Bool)) (f : Ident × Bool × Ty) : Option (AMap QName Bool) :=
  match f.2.2 with
  | .path segs _ =>
    if startsWith f.1 "_base" then
      m.bind fun m => (QName.ofTypePath segs).map fun q => m.insert q f.2.1
    else m
  | _ => m

theorem getBases_eq (l : List (Ident × Bool × Ty)) : getBases l = l.foldl baseStep (some []) := rfl

theorem baseStep_none (l : List (Ident × Bool × Ty)) : l.foldl baseStep none = none := by
  induction l with
  | nil => rfl
  | cons f l ih =>
    rw [List.foldl_cons]
    have : baseStep none f = none := by
      unfold baseStep
      split
      · split <;> rfl
      · rfl
    rw [this, ih]

theorem baseStep_cases (m : AMap QName Bool) (f : Ident × Bool × Ty) :
    baseStep (some m) f = none ∨ (∃ q v, IsBaseField f q v ∧ baseStep (some m) f = some (m.insert q v)) ∨
    ((∀ q v, ¬ IsBaseField f q v) ∧ baseStep (some m) f = some m) := by
  obtain ⟨id, vis, ty⟩ := f
  unfold baseStep
  cases ty with
  | path segs args =>
    dsimp only
    by_cases hb : startsWith id "_base" = true
    · rw [if_pos hb]
      cases hq : QName.ofTypePath segs with
      | none => exact .inl (by simp)
      | some q =>
        exact .inr (.inl ⟨q, vis, ⟨id, segs, args, rfl, (startsWith_iff_append _ _).1 hb, hq⟩, by simp⟩)
    · rw [if_neg hb]
      refine .inr (.inr ⟨?_, rfl⟩)
      rintro q v ⟨id', s', a', e, hr, -⟩
      cases e
      exact hb ((startsWith_iff_append _ _).2 hr)
  | _ =>
    refine .inr (.inr ⟨?_, rfl⟩)
    rintro q v ⟨id', s', a', e, -⟩
    cases e

theorem lastBase_cons (f : Ident × Bool × Ty) (l : List (Ident × Bool × Ty)) (q : QName) (b : Bool) :
    LastBase (f :: l) q b ↔ LastBase l q b ∨ (IsBaseField f q b ∧ ∀ g ∈ l, ∀ c, ¬ IsBaseField g q c) := by
  constructor
  · rintro ⟨pre, g, post, e, hg, hp⟩
    cases pre with
    | nil => cases e; exact .inr ⟨hg, hp⟩
    | cons x pre => cases e; exact .inl ⟨pre, g, post, rfl, hg, hp⟩
  · rintro (⟨pre, g, post, rfl, hg, hp⟩ | ⟨hg, hp⟩)
    · exact ⟨f :: pre, g, post, rfl, hg, hp⟩
    · exact ⟨[], f, l, rfl, hg, hp⟩

theorem bases_fold {l : List (Ident × Bool × Ty)} {m0 m : AMap QName Bool} (hw : AMap.WF m0)
    (h : l.foldl baseStep (some m0) = some m) : AMap.WF m ∧ ∀ q b, AMap.get? m q = some b ↔
      LastBase l q b ∨ (AMap.get? m0 q = some b ∧ ∀ g ∈ l, ∀ c, ¬ IsBaseField g q c) := by
  induction l generalizing m0 with
  | nil =>
    cases h
    refine ⟨hw, fun q b => ⟨fun h => .inr ⟨h, by simp⟩, ?_⟩⟩
    rintro (⟨pre, f, post, e, -⟩ | ⟨h, -⟩)
    · cases pre <;> cases e
    · exact h
  | cons f l ih =>
    rw [List.foldl_cons] at h
    rcases baseStep_cases m0 f with e | ⟨q0, v0, hf, e⟩ | ⟨hf, e⟩
    · rw [e, baseStep_none] at h; cases h
    · rw [e] at h
      obtain ⟨h1, h2⟩ := ih (AMap.insert_wf hw _ _) h
      refine ⟨h1, fun q b => ?_⟩
      rw [h2, lastBase_cons, or_assoc]
      refine or_congr Iff.rfl ?_
      by_cases hq : q0 = q
      · subst hq
        rw [AMap.get?_insert_self]
        constructor
        · rintro ⟨e, hl⟩; cases e; exact .inl ⟨hf, hl⟩
        · rintro (⟨hb, hl⟩ | ⟨-, hl⟩)
          · obtain ⟨-, rfl⟩ := isBaseField_unique hf hb; exact ⟨rfl, hl⟩
          · exact absurd hf (hl f (by simp) _)
      · rw [AMap.get?_insert_of_ne _ _ hq]
        constructor
        · rintro ⟨e, hl⟩
          refine .inr ⟨e, fun g hg c hc => ?_⟩
          rcases List.mem_cons.1 hg with rfl | hg
          · exact hq (isBaseField_unique hf hc).1
          · exact hl g hg c hc
        · rintro (⟨hb, -⟩ | ⟨e, hl⟩)
          · exact absurd (isBaseField_unique hf hb).1 hq
          · exact ⟨e, fun g hg => hl g (by simp [hg])⟩
    · rw [e] at h
      obtain ⟨h1, h2⟩ := ih hw h
      refine ⟨h1, fun q b => ?_⟩
      rw [h2, lastBase_cons, or_assoc]
      refine or_congr Iff.rfl ?_
      constructor
      · rintro ⟨e, hl⟩
        refine .inr ⟨e, fun g hg c hc => ?_⟩
        rcases List.mem_cons.1 hg with rfl | hg
        · exact hf _ _ hc
        · exact hl g hg c hc
      · rintro (⟨hb, -⟩ | ⟨e, hl⟩)
        · exact absurd hb (hf _ _)
        · exact ⟨e, fun g hg => hl g (by simp [hg])⟩

theorem getBases_spec {l : List (Ident × Bool × Ty)} {m : AMap QName Bool} (h : getBases l = some m) :
    AMap.WF m ∧ ∀ q b, AMap.get? m q = some b ↔ LastBase l q b := by
  obtain ⟨h1, h2⟩ := bases_fold AMap.nil_wf h
  refine ⟨h1, fun q b => ?_⟩
  rw [h2]
  simp

theorem lastBase_exists (l : List (Ident × Bool × Ty)) (q : QName) :
    (∃ b, LastBase l q b) ↔ ∃ f ∈ l, ∃ v, IsBaseField f q v := by
  constructor
  · rintro ⟨b, pre, f, post, rfl, hf, -⟩
    exact ⟨f, by simp, b, hf⟩
  · intro h
    induction l with
    | nil => obtain ⟨f, hf, -⟩ := h; cases hf
    | cons f l ih =>
      by_cases hl : ∃ g ∈ l, ∃ v, IsBaseField g q v
      · obtain ⟨b, hb⟩ := ih hl
        exact ⟨b, (lastBase_cons _ _ _ _).2 (.inl hb)⟩
      · obtain ⟨g, hg, v, hv⟩ := h
        rcases List.mem_cons.1 hg with rfl | hg
        · exact ⟨v, (lastBase_cons _ _ _ _).2 (.inr ⟨hv, fun x hx c hc => hl ⟨x, hx, c, hc⟩⟩)⟩
        · exact absurd ⟨g, hg, v, hv⟩ hl

theorem castableBases_spec {hash : Config → Nat} {cfg : Config} {m : AMap QName Bool} {l : List QName}
    (h : castableBases hash cfg m = some l) (q : QName) :
    q ∈ l ↔ (q, true) ∈ m ∧ cfg.isOnAllowlist hash q.toCppName = some true := by
  induction m generalizing l with
  | nil => cases h; simp
  | cons e m ih =>
    obtain ⟨b, isPublic⟩ := e
    rw [castableBases] at h
    cases isPublic with
    | false =>
      rw [if_neg (by simp)] at h
      rw [ih h]
      simp
    | true =>
      rw [if_pos rfl] at h
      cases ho : cfg.isOnAllowlist hash b.toCppName with
      | none => rw [ho] at h; cases h
      | some ok =>
        rw [ho] at h
        simp only [Option.bind_some, Option.map_eq_some_iff] at h
        obtain ⟨r, hr, rfl⟩ := h
        cases ok with
        | true =>
          rw [if_pos rfl, List.mem_cons, ih hr, List.mem_cons]
          constructor
          · rintro (rfl | ⟨h1, h2⟩)
            · exact ⟨.inl rfl, ho⟩
            · exact ⟨.inr h1, h2⟩
          · rintro ⟨h1 | h1, h2⟩
            · cases h1; exact .inl rfl
            · exact .inr ⟨h1, h2⟩
        | false =>
          rw [if_neg (by simp), ih hr, List.mem_cons]
          constructor
          · rintro ⟨h1, h2⟩; exact ⟨.inr h1, h2⟩
          · rintro ⟨h1 | h1, h2⟩
            · cases h1; rw [ho] at h2; cases h2
            · exact ⟨h1, h2⟩

theorem castableBases_sublist {hash : Config → Nat} {cfg : Config} {m : AMap QName Bool} {l : List QName}
    (h : castableBases hash cfg m = some l) : l.Sublist (AMap.keys m) := by
  induction m generalizing l with
  | nil => cases h; exact .slnil
  | cons e m ih =>
    obtain ⟨b, isPublic⟩ := e
    rw [castableBases] at h
    have hk : AMap.keys ((b, isPublic) :: m) = b :: AMap.keys m := rfl
    rw [hk]
    cases isPublic with
    | false =>
      rw [if_neg (by simp)] at h
      exact (ih h).cons _
    | true =>
      rw [if_pos rfl] at h
      cases ho : cfg.isOnAllowlist hash b.toCppName with
      | none => rw [ho] at h; cases h
      | some ok =>
        rw [ho] at h
        simp only [Option.bind_some, Option.map_eq_some_iff] at h
        obtain ⟨r, hr, rfl⟩ := h
        cases ok with
        | true => rw [if_pos rfl]; exact (ih hr).cons_cons _
        | false => rw [if_neg (by simp)]; exact (ih hr).cons _

/-! ### What may become of a struct -/

/-- Some field holds data of which nothing is known. -/
def HasBlob (out : List (Ident × Except Err (Annotated Ty))) : Prop :=
  ∃ a, ("_bindgen_opaque_blob", .ok a) ∈ out

theorem hasBlob_iff {out : List (Ident × Except Err (Annotated Ty))} {fs : Fields} (h : FieldsSpec out fs) :
    fs.info.any (·.bindgenOpaqueData) = true ↔ HasBlob out := by
  rw [h.info, List.any_eq_true]
  constructor
  · rintro ⟨x, hx, hb⟩
    rw [List.mem_filterMap] at hx
    obtain ⟨⟨id, r⟩, hm, he⟩ := hx
    cases r with
    | error e => cases he
    | ok a =>
      cases he
      simp only [decide_eq_true_eq] at hb
      subst hb
      exact ⟨a, (List.mem_filter.1 hm).1⟩
  · rintro ⟨a, ha⟩
    refine ⟨⟨a.ty, a.kind, true⟩, ?_, rfl⟩
    rw [List.mem_filterMap]
    exact ⟨_, List.mem_filter.2 ⟨ha, (by decide : (!isBaseOrPadding "_bindgen_opaque_blob") = true)⟩, by simp⟩

/-- Why a struct is refused. `pod` says which types are to be passed by value, and `out` what became of its
fields. -/
inductive StructRefused (attrs : Attrs) (pod : QName → Bool) (n : QName) (d : StructDetails)
    (out : List (Ident × Except Err (Annotated Ty))) : Err → Prop
  | rvalueReference (hb : ¬ HasBlob out) (hp : pod n = true) (h : d.hasRvalueReferenceFields = true) :
      StructRefused attrs pod n d out .rvalueReferenceField
  | field {pre post : List (Ident × Except Err (Annotated Ty))} {id : Ident} {e : Err} (hb : ¬ HasBlob out)
      (hp : pod n = true) (h : d.hasRvalueReferenceFields = false) (ho : out = pre ++ (id, .error e) :: post)
      (hpre : ∀ o ∈ pre, ∃ a, o.2 = .ok a) : StructRefused attrs pod n d out e

/-- The kind of a struct which is kept. -/
inductive StructKind (pod : QName → Bool) (n : QName) (d : StructDetails)
    (out : List (Ident × Except Err (Annotated Ty))) : TypeKind → Prop
  | blob (h : HasBlob out) : StructKind pod n d out .opaque
  | pod (hb : ¬ HasBlob out) (hp : pod n = true) (hr : d.hasRvalueReferenceFields = false)
      (hf : ∀ o ∈ out, ∃ a, o.2 = .ok a) : StructKind pod n d out .pod
  | nonPod (hb : ¬ HasBlob out) (hp : pod n = false) : StructKind pod n d out .nonPod

/-- The analysis of a struct which is kept. -/
structure StructKept (hash : Config → Nat) (cfg : Config) (pod : QName → Bool) (n : QName) (d : StructDetails)
    (out : List (Ident × Except Err (Annotated Ty))) (a : PodAnalysis) : Prop where
  kind : StructKind pod n d out a.kind
  bases : ∀ q, q ∈ a.bases ↔ ∃ f ∈ d.fields, ∃ v, IsBaseField f q v
  castable : ∀ q, q ∈ a.castableBases ↔ LastBase d.fields q true ∧ cfg.isOnAllowlist hash q.toCppName = some true
  once : a.bases.Nodup ∧ a.castableBases.Nodup
  deps : ∀ q, q ∈ a.fieldDeps ↔ ∃ id b, (id, .ok b) ∈ out ∧ ¬ BaseOrPadding id ∧ q ∈ b.deps
  definitions : ∀ q, q ∈ a.fieldDefinitionDeps ↔ ∃ id b segs args, (id, .ok b) ∈ out ∧ ¬ BaseOrPadding id ∧
    b.ty = .path segs args ∧ QName.ofTypePath segs = some q
  info : a.fieldInfo = (out.filter fun o => !isBaseOrPadding o.1).filterMap fun o => match o.2 with
    | .ok b => some ⟨b.ty, b.kind, o.1 = "_bindgen_opaque_blob"⟩
    | .error _ => none
  generics : a.numGenerics = d.generics.length
  anonymous : a.inAnonymousNamespace = true ↔ ∃ x ∈ n.ns, ∃ r, x = "_bindgen_mod" ++ r

/-- What becomes of an item in the POD pass, with the state before and after. -/
inductive PodFate (env : ConvEnv) (fuel : Nat) (hash : Config → Nat) (attrs : Attrs) (pod : QName → Bool) :
    PassState → TypedefApi → PassState → PodApi → Prop
  | other {s : PassState} {a : TypedefApi} (hs : ∀ n d u, a ≠ .struct n d u) (he : ∀ n i, a ≠ .enum n i) :
      PodFate env fuel hash attrs pod s a s (a.mapAnalysis id (fun _ => {}) id)
  | enum {s : PassState} {n : ApiName} {i : String} (h : attrs.discardsTemplateParam n.name = false)
      (hv : attrs.cppVisibility n.name = .pub) : PodFate env fuel hash attrs pod s (.enum n i) s (.enum n i)
  | unusedParam {s : PassState} {a : TypedefApi} {n : ApiName} (h : (∃ i, a = .enum n i) ∨ ∃ d u, a = .struct n d u)
      (hd : attrs.discardsTemplateParam n.name = true) :
      PodFate env fuel hash attrs pod s a s (.ignoredItem n .unusedTemplateParam (some (.newForItem n.name.name)))
  | notPublic {s : PassState} {a : TypedefApi} {n : ApiName} (h : (∃ i, a = .enum n i) ∨ ∃ d u, a = .struct n d u)
      (hd : attrs.discardsTemplateParam n.name = false) (hv : attrs.cppVisibility n.name ≠ .pub) :
      PodFate env fuel hash attrs pod s a s (.ignoredItem n .nonPublicNestedType (some (.newForItem n.name.name)))
  | refused {s s' : PassState} {n : ApiName} {d : StructDetails} {u : Unit}
      {out : List (Ident × Except Err (Annotated Ty))} {e : Err}
      (hd : attrs.discardsTemplateParam n.name = false) (hv : attrs.cppVisibility n.name = .pub)
      (ht : Thread (FieldStep env fuel n.name.ns d.generics) s d.fields s' out)
      (h : StructRefused attrs pod n.name d out e) :
      PodFate env fuel hash attrs pod s (.struct n d u) s' (.ignoredItem n e (some (.newForItem n.name.name)))
  | kept {s s' : PassState} {n : ApiName} {d : StructDetails} {u : Unit}
      {out : List (Ident × Except Err (Annotated Ty))} {a : PodAnalysis}
      (hd : attrs.discardsTemplateParam n.name = false) (hv : attrs.cppVisibility n.name = .pub)
      (ht : Thread (FieldStep env fuel n.name.ns d.generics) s d.fields s' out)
      (h : StructKept hash env.cfg pod n.name d out a) :
      PodFate env fuel hash attrs pod s (.struct n d u) s' (.struct n d a)

theorem errs_split (out : List (Ident × Except Err (Annotated Ty))) :
    (∀ o ∈ out, ∃ a, o.2 = .ok a) ∧ (out.filterMap fun o => match o.2 with
      | .ok _ => none
      | .error e => some e) = [] ∨
    ∃ pre post id e r, out = pre ++ (id, .error e) :: post ∧ (∀ o ∈ pre, ∃ a, o.2 = .ok a) ∧
      (out.filterMap fun o => match o.2 with
        | .ok _ => none
        | .error e => some e) = e :: r := by
  induction out with
  | nil => exact .inl ⟨by simp, rfl⟩
  | cons o out ih =>
    obtain ⟨id, r⟩ := o
    cases r with
    | error e => exact .inr ⟨[], out, id, e, _, rfl, by simp, rfl⟩
    | ok a =>
      rcases ih with ⟨h1, h2⟩ | ⟨pre, post, id', e, r, rfl, h1, h2⟩
      · refine .inl ⟨?_, ?_⟩
        · intro o ho
          rcases List.mem_cons.1 ho with rfl | ho
          · exact ⟨a, rfl⟩
          · exact h1 o ho
        · rw [List.filterMap_cons]; exact h2
      · refine .inr ⟨(id, .ok a) :: pre, post, id', e, r, rfl, ?_, ?_⟩
        · intro o ho
          rcases List.mem_cons.1 ho with rfl | ho
          · exact ⟨a, rfl⟩
          · exact h1 o ho
        · rw [List.filterMap_cons]; exact h2

theorem structKind_spec (attrs : Attrs) (pod : ByValue) (n : ApiName) (d : StructDetails) {fs : Fields}
    {out : List (Ident × Except Err (Annotated Ty))} (h : FieldsSpec out fs) :
    (∃ k, structKind pod n d fs = .ok k ∧ StructKind pod.isPod n.name d out k) ∨
    ∃ e, structKind pod n d fs = .error ⟨e, some (.newForItem n.name.name)⟩ ∧
      StructRefused attrs pod.isPod n.name d out e := by
  unfold structKind
  by_cases hb : fs.info.any (·.bindgenOpaqueData) = true
  · rw [if_pos hb]
    exact .inl ⟨_, rfl, .blob ((hasBlob_iff h).1 hb)⟩
  · rw [if_neg hb]
    have hb' : ¬ HasBlob out := fun x => hb ((hasBlob_iff h).2 x)
    by_cases hp : pod.isPod n.name = true
    · rw [if_pos hp]
      by_cases hr : d.hasRvalueReferenceFields = true
      · rw [if_pos hr]
        exact .inr ⟨_, rfl, .rvalueReference hb' hp hr⟩
      · rw [if_neg hr]
        have hr' : d.hasRvalueReferenceFields = false := by simpa using hr
        have he := h.errs
        rcases errs_split out with ⟨h1, h2⟩ | ⟨pre, post, id, e, r, h1, h2, h3⟩
        · rw [h2] at he; rw [he]
          exact .inl ⟨_, rfl, .pod hb' hp hr' h1⟩
        · rw [h3] at he; rw [he]
          exact .inr ⟨e, rfl, .field hb' hp hr' h1 h2⟩
    · rw [if_neg hp]
      exact .inl ⟨_, rfl, .nonPod hb' (by simpa using hp)⟩

theorem podStep_fate {env : ConvEnv} {fuel : Nat} {hash : Config → Nat} {attrs : Attrs} {pod : ByValue}
    {s s' : PassState} {a : TypedefApi} {r : Except ErrWithCtx (List PodApi)}
    (h : podStep env fuel hash attrs pod s a = (s', .done r)) :
    ∃ b, apiOrError a.nameInfo r = [b] ∧ PodFate env fuel hash attrs pod.isPod s a s' b := by
  cases a with
  | struct n d u =>
    rw [podStep, analyzeStruct] at h
    rcases fatalAttrs_inv attrs n.name with ⟨hd, e⟩ | ⟨hd, hv, e⟩ | ⟨hd, hv, e⟩
    · rw [e] at h; cases h
      exact ⟨_, rfl, .unusedParam (.inr ⟨_, _, rfl⟩) hd⟩
    · rw [e] at h; cases h
      exact ⟨_, rfl, .notPublic (.inr ⟨_, _, rfl⟩) hd hv⟩
    · rw [e] at h
      dsimp only at h
      cases hb : getBases d.fields with
      | none => rw [hb] at h; cases h
      | some bases =>
        rw [hb] at h
        dsimp only at h
        cases hf : fieldTypes env fuel n.name.ns d.generics s {} d.fields with
        | mk s1 rf =>
          rw [hf] at h
          cases rf with
          | panic => cases h
          | diverges => cases h
          | done fs =>
            dsimp only at h
            obtain ⟨out, ht, hs⟩ := fieldTypes_spec hf
            rcases structKind_spec attrs pod n d hs with ⟨k, hk, hkk⟩ | ⟨e, hk, hr⟩
            · rw [hk] at h
              dsimp only at h
              cases hc : castableBases hash env.cfg bases with
              | none => rw [hc] at h; cases h
              | some castable =>
                rw [hc] at h
                cases h
                refine ⟨_, rfl, .kept hd hv ht ⟨hkk, ?_, ?_, ?_, hs.deps, hs.definitions, hs.info, rfl, ?_⟩⟩
                · intro q
                  rw [AMap.mem_keys_iff, ← lastBase_exists]
                  exact exists_congr fun b => (getBases_spec hb).2 q b
                · intro q
                  rw [castableBases_spec hc, ← (getBases_spec hb).2]
                  refine and_congr ⟨AMap.mem_get? (getBases_spec hb).1, AMap.get?_mem⟩ Iff.rfl
                · exact ⟨(getBases_spec hb).1, (castableBases_sublist hc).nodup (getBases_spec hb).1⟩
                · rw [List.any_eq_true]
                  exact exists_congr fun x => and_congr Iff.rfl (startsWith_iff_append _ _)
            · rw [hk] at h
              cases h
              exact ⟨_, rfl, .refused hd hv ht hr⟩
  | enum n i =>
    rw [podStep, analyzeEnum] at h
    rcases fatalAttrs_inv attrs n.name with ⟨hd, e⟩ | ⟨hd, hv, e⟩ | ⟨hd, hv, e⟩
    · rw [e] at h; cases h
      exact ⟨_, rfl, .unusedParam (.inl ⟨_, rfl⟩) hd⟩
    · rw [e] at h; cases h
      exact ⟨_, rfl, .notPublic (.inl ⟨_, rfl⟩) hd hv⟩
    · rw [e] at h; cases h
      exact ⟨_, rfl, .enum hd hv⟩
  | _ => cases h; exact ⟨_, rfl, .other (by intros; intro e; cases e) (by intros; intro e; cases e)⟩

end Verif
