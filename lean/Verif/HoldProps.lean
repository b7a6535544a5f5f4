import Verif.ParseGoodProps

/-!
# C71: classes which hold each other, in the header

`NoSelfHolding` is about the classes after the POD analysis, whose fields have been converted and whose typedefs have been
followed. `HeldInOrder` says the same of the header itself: there is an order in which every class comes after what its
fields and bases are written as, and no typedef comes before its target. As C++ wants types to be complete before they are
held, the order of declaration is such an order.
-/

set_option autoImplicit false

namespace Verif

open ApiVec
open Relation (ReflTransGen)

/-! ### Specification -/

/-- The names a type written in a namespace may be for, whatever its arguments: the path itself, or the path from that
namespace. Two of bindgen's markers stand for the type inside them. -/
inductive WrittenAs (ns : List String) : Ty → QName → Prop
  | path {segs : List String} {args : List Ty} {q : QName}
      (h : QName.ofTypePath segs = some q ∨ QName.ofTypePath ("output" :: ns ++ segs) = some q) :
      WrittenAs ns (.path segs args) q
  | marked {m : String} {t : Ty} {args : List Ty} {q : QName}
      (hm : m = "__bindgen_marker_UnusedTemplateParam" ∨ m = "__bindgen_marker_Opaque") (h : WrittenAs ns t q) :
      WrittenAs ns (.path [m] (t :: args)) q

/-- Names which autocxx gives to template instantiations, by itself or because of `concrete!`. -/
def InstantiationName (cfg : Config) (q : QName) : Prop :=
  q.ns = [] ∧ ((∃ e ∈ cfg.concretes, q.name = e.2) ∨ ∃ p s, q.name = p ++ "AutocxxConcrete" ++ s)

/-- What a type is built from comes before it. -/
structure InOrder (cfg : Config) (depth : QName → Nat) (typedefs : QName → Ty → Prop) (fields : QName → Ty → Prop) :
    Prop where
  /-- What is built in, and what autocxx names itself, comes first. -/
  builtin : ∀ q, (∃ d, knownGet q = some d) ∨ InstantiationName cfg q → depth q = 0
  typedefs : ∀ n t, typedefs n t → ∀ q, WrittenAs n.ns t q → depth q ≤ depth n
  fields : ∀ n t, fields n t → ∀ q, WrittenAs n.ns t q → depth q < depth n

/-- The typedefs in a header. -/
inductive HeaderTypedef (root : List BindgenItem) : QName → Ty → Prop
  | type {ns : List String} {l : List BindgenItem} {id : Ident} {ty : Ty} {gs : List Ident} (hm : Module [] root ns l)
      (h : .type id ty gs ∈ l) : HeaderTypedef root ⟨ns, id⟩ ty
  | use {ns : List String} {l : List BindgenItem} {t : BindgenUse} {segs : List String} {a b : Ident}
      (hm : Module [] root ns l) (h : .use t ∈ l) (hu : UseIs t ("self" :: "super" :: segs) (.rename a b)) :
      HeaderTypedef root ⟨ns, b⟩ (.path (segs ++ [a]) [])

/-- The fields in a header, with the bases, which bindgen writes as fields. -/
inductive HeaderField (root : List BindgenItem) : QName → Ty → Prop
  | mk {ns : List String} {l : List BindgenItem} {id : Ident} {fs : List (Ident × Bool × Ty)} {gs : List Ident}
      {f : Ident × Bool × Ty} (hm : Module [] root ns l) (h : .struct id fs gs ∈ l) (hf : f ∈ fs) :
      HeaderField root ⟨ns, id⟩ f.2.2

/-- The types of a header can be put in an order in which each class comes after what it holds and derives from. -/
def HeldInOrder (cfg : Config) (root : List BindgenItem) : Prop :=
  ∃ depth : QName → Nat, InOrder cfg depth (HeaderTypedef root) (HeaderField root)

/-! ### The name of a converted type -/

theorem endsAt_hops {m : AMap QName Ty} {q : QName} {r : Option Ty} (h : EndsAt m q r) {s : List String} {a : List Ty}
    (ht : r = some (.path s a)) {tn : QName} (hs : QName.ofTypePath s = some tn) : ReflTransGen (Hop m) q tn := by
  induction h with
  | notTypedef _ => cases ht
  | unnamed h hne => cases ht; exact absurd rfl (hne _ _)
  | last h ha hr _ =>
    cases ht
    have e := h.2
    rw [hs] at e
    cases e
    exact .single ⟨⟨_, _, h⟩, ha⟩
  | hop h hr ih => exact (ih ht).head h

theorem prepared_hops {env : ConvEnv} {ns segs : List String} {args : List Ty} {q : QName} {segs' s : List String}
    {a : List Ty} {tn : QName} {deps : List QName} (h : Prepared env ns segs args q segs' (.path s a tn deps)) :
    WrittenAs ns (.path segs args) q ∧ ReflTransGen (Hop env.typedefs) q tn := by
  constructor
  · rcases (qualifyPath_cases (env := env) (ns := ns) (segs := segs)).2 _ h.qualified with e | e
    · exact .path (.inl (e ▸ h.name))
    · exact .path (.inr (e ▸ h.name))
  · rcases prepared_inv h with ⟨_, e⟩ | ⟨_, _, _, he, htn, e⟩ | ⟨_, _, _, e⟩ | ⟨_, _, _, _, e⟩
    · cases e; exact .refl
    · cases e; exact endsAt_hops he rfl htn
    · cases e
    · cases e

/-- A type which is converted to a path was written with a name. The path is that of a built-in type, of an instantiation
which is registered, or of what that name is for once typedefs are followed. -/
theorem converted_name {env : ConvEnv} {ns : List String} {n : Nat} {ctx : ConvCtx} {st st' : Concretes} {ty : Ty}
    {a : Annotated Ty} (h : convertType env ns n ctx st ty = (st', .ok a)) {segs : List String} {args : List Ty}
    (hp : a.ty = .path segs args) {q : QName} (hq : QName.ofTypePath segs = some q) :
    ∃ r, WrittenAs ns ty r ∧
      ((∃ d, knownGet q = some d) ∨ (∃ cpp, AMap.get? st' cpp = some q) ∨ ReflTransGen (Hop env.typedefs) r q) := by
  induction n generalizing ctx st st' ty a with
  | zero => cases h
  | succ n ih =>
    cases convertType_ok h with
    | marker hm h' hr =>
      obtain ⟨r, h1, h2⟩ := ih hr hp
      rw [unwrapMarker] at h'
      split at h'
      · rename_i e
        subst e
        obtain ⟨l, rfl⟩ := List.head?_eq_some_iff.1 h'
        exact ⟨r, .marked hm h1, h2⟩
      · cases h'
    | lvalue h' hr =>
      rename_i mu e b
      cases mu with
      | false => cases hp
      | true =>
        cases hp
        have e : QName.ofTypePath ["core", "pin", "Pin"] = some ⟨["core", "pin"], "Pin"⟩ := by decide
        rw [hq] at e
        cases e
        rw [unwrapReference, unwrapMarker] at h'
        simp only [Bool.false_eq_true, if_false] at h'
        split at h'
        · rename_i h''
          split at h''
          · rename_i e
            subst e
            exact ⟨⟨[], "__bindgen_marker_Reference"⟩, .path (.inl (by decide)), .inl known_pin⟩
          · cases h''
        · cases h'
    | rvalue h' hp' hr => cases hp
    | ref hr => cases hp
    | array hr => cases hp
    | ptr hp' hr => cases hp
    | done hp' =>
      rcases prepared_inv hp' with ⟨_, e⟩ | ⟨_, _, _, _, _, e⟩ | ⟨mu, e', he, e⟩ | ⟨t, he, hne, _, e⟩
      · cases e
      · cases e
      · cases e; cases hp
      · cases e; exact absurd hp (hne _ _)
    | plain hp' hf =>
      obtain ⟨hn, _, hd⟩ := prepared_path hp'
      obtain ⟨h1, h2⟩ := prepared_hops hp'
      rcases finishPath_ok hf with ⟨rfl, _⟩ | ⟨rfl, _⟩
      · cases hp
        rcases substitutePath_name hn hq with h | rfl
        · exact ⟨_, h1, .inl h⟩
        · exact ⟨_, h1, .inr (.inr h2)⟩
      · cases hp
    | concrete hp' hb hi hqn hig ht hf =>
      obtain ⟨h1, h2⟩ := prepared_hops hp'
      rcases finishPath_ok hf with ⟨rfl, _⟩ | ⟨rfl, _⟩
      · cases hp
        rcases toTypePath_name hq with h | rfl
        · exact ⟨_, h1, .inl h⟩
        · obtain ⟨cpp, -, h3⟩ := templated_ok ht
          exact ⟨_, h1, .inr (.inl ⟨cpp, h3⟩)⟩
      · cases hp
    | container hp' hb hargs hk hf =>
      obtain ⟨hn, _, hd⟩ := prepared_path hp'
      obtain ⟨h1, h2⟩ := prepared_hops hp'
      rcases finishPath_ok hf with ⟨rfl, _⟩ | ⟨rfl, _⟩
      · cases hp
        rcases substitutePath_name hn hq with h | rfl
        · exact ⟨_, h1, .inl h⟩
        · exact ⟨_, h1, .inr (.inr h2)⟩
      · cases hp

/-! ### The names of instantiations -/

def NamedSt (cfg : Config) (st : Concretes) : Prop := ∀ e ∈ st, InstantiationName cfg e.2

theorem concreteIdent_name (cfg : Config) (st : Concretes) (cpp : String) :
    InstantiationName cfg ⟨[], concreteIdent st cpp⟩ := by
  refine ⟨rfl, .inr ?_⟩
  rw [concreteIdent]
  dsimp only
  split
  · exact ⟨"", dec st.length, by simp⟩
  · obtain ⟨p, hp⟩ := syntheticIdent_suffix cpp
    exact ⟨p, "", by rw [hp]; simp⟩

theorem grows_named {cfg : Config} {st st' : Concretes} (h : Grows st st') (hs : NamedSt cfg st) : NamedSt cfg st' := by
  induction h with
  | refl => exact hs
  | reg hn _ ih =>
    refine ih fun e he => ?_
    rcases mem_insert_cases he with he | he
    · exact hs e he
    · rw [he]; exact concreteIdent_name ..

theorem NamedSt.get {cfg : Config} {st : Concretes} (h : NamedSt cfg st) {cpp : String} {q : QName}
    (hq : AMap.get? st cpp = some q) : InstantiationName cfg q := h _ (AMap.get?_mem hq)

theorem concretes_named {T S F : Type} {cfg : Config} {apis : List (Api T S F)}
    (h : ∀ n r c, .concreteType n r c ∈ apis → InstantiationName cfg n.name) : NamedSt cfg (findConcretes apis) := by
  refine foldl_keeps (P := fun m : Concretes => ∀ e ∈ m, InstantiationName cfg e.2)
    apis (fun e h => by cases h) (fun m hm x hx e he => ?_)
  cases x with
  | concreteType n r c =>
    dsimp only at he
    rcases mem_insert_cases he with he | he
    · exact hm e he
    · rw [he]; exact h n r c hx
  | _ => exact hm e he

/-- The instantiations among the items have such names, and so do those which the typedef pass adds. -/
theorem typedef_pass_named {fuel : Nat} {cfg : Config} {attrs : Attrs} {apis : ApiVec Unit Unit Unit}
    {v : ApiVec TypedefAnalysis Unit Unit} (h : convertTypedefTargets fuel cfg attrs apis = .done v)
    (hn : ∀ n r c, .concreteType n r c ∈ apis.apis → InstantiationName cfg n.name) :
    ∀ n r c, .concreteType n r c ∈ v.apis → InstantiationName cfg n.name := by
  obtain ⟨s, out, ht, -, rfl⟩ := typedef_pass fuel cfg attrs apis v h
  have hs := ht.keeps (P := fun s => NamedSt cfg s.concretes ∧ s.extra.Inv ∧
      ∀ n r c, .concreteType n r c ∈ s.extra.apis → InstantiationName cfg n.name) (fun s a s' b hf hs => by
    refine ⟨grows_named (tdefFate_grows hf) hs.1, ?_⟩
    have hg := grows_named (tdefFate_grows hf) hs.1
    cases hf with
    | other => exact hs.2
    | use => exact hs.2
    | refused => exact hs.2
    | kept hu hk =>
      refine ⟨extend_inv hs.2.1 _, fun n r c hm => ?_⟩
      rcases extend_mem_cases _ hs.2.1 hm with hm | hm | ⟨q, e⟩
      · exact hs.2.2 n r c hm
      · obtain ⟨-, cpp, -, h2⟩ := convert_extra_inst _ _ _ _ _ _ _ _ hk.converted _ hm
        exact hg.get h2
      · cases e) ⟨concretes_named hn, inv_empty, fun _ _ _ h => by cases h⟩
  intro n r c hm
  rcases mem_extend _ _ hm with hm | hm | hm
  · rcases mem_extend _ _ hm with hm | hm | hm
    · cases hm
    · obtain ⟨a, ha, s1, s2, hf⟩ := ht.all2.right hm
      generalize hb : Api.concreteType n r c = b at hf
      cases hf with
      | other hne =>
        cases a with
        | concreteType => cases hb; exact hn _ _ _ ha
        | _ => cases hb
      | _ => cases hb
    · cases hm
  · rw [List.mem_map] at hm
    obtain ⟨z, hz, e⟩ := hm
    cases z with
    | concreteType => cases e; exact hs.2.2 _ _ _ hz
    | _ => cases e
  · cases hm

/-! ### Following typedefs, and holding -/

theorem typedefs_named {T S F : Type} {target : T → Option Ty} {apis : List (Api T S F)} {q : QName} {t : Ty}
    (h : AMap.get? (findTypedefs target apis) q = some t) :
    ∃ n i o a, .typedef n i o a ∈ apis ∧ n.name = q ∧ target a = some t := by
  refine foldl_keeps (P := fun m => ∀ q t, AMap.get? m q = some t →
      ∃ n i o a, .typedef n i o a ∈ apis ∧ n.name = q ∧ target a = some t)
    apis (fun q c h => by cases h) (fun m hm x hx q c hq => ?_) q t h
  cases x with
  | typedef n i o a =>
    dsimp only at hq
    split at hq
    · rename_i t' ht'
      rw [AMap.get?_insert] at hq
      split at hq
      · rename_i e
        cases hq; exact ⟨n, i, o, a, hx, e, ht'⟩
      · exact hm q c hq
    · exact hm q c hq
  | _ => exact hm q c hq

/-- The typedefs and the fields among the items. -/
def ItemTypedef (apis : List NullApi) (q : QName) (t : Ty) : Prop := ∃ n i o u, .typedef n i o u ∈ apis ∧ n.name = q ∧ i.ty = t

def ItemField (apis : List NullApi) (q : QName) (t : Ty) : Prop :=
  ∃ n d u f, .struct n d u ∈ apis ∧ f ∈ d.fields ∧ n.name = q ∧ f.2.2 = t

/-- **C71 (no class holds itself)**: if the types are in order, no class holds itself after the POD analysis. -/
theorem in_order_held {fuel : Nat} {hash : Config → Nat} {cfg : Config} {attrs : Attrs} {apis : ApiVec Unit Unit Unit}
    {tds : ApiVec TypedefAnalysis Unit Unit} {v : ApiVec TypedefAnalysis PodAnalysis Unit} {depth : QName → Nat}
    (hord : InOrder cfg depth (ItemTypedef apis.apis) (ItemField apis.apis))
    (hn : ∀ n r c, .concreteType n r c ∈ apis.apis → InstantiationName cfg n.name)
    (ht : convertTypedefTargets fuel cfg attrs apis = .done tds)
    (hv : analyzePodApis fuel hash cfg attrs tds = .done (.ok v)) : NoSelfHolding v.apis := by
  have hn' := typedef_pass_named ht hn
  have hst' := concretes_named hn'
  have hst := concretes_named hn
  have hhop : ∀ x y, Hop (podEnv cfg tds).typedefs x y → depth y ≤ depth x := by
    rintro x y ⟨⟨segs, args, hx, hy⟩, -⟩
    obtain ⟨n, i, o, an, hm, rfl, ha⟩ := typedefs_named (target := fun a : TypedefAnalysis => some a.target) hx
    obtain ⟨hm', ⟨-, rfl⟩ | ⟨-, st, st', a, hk, hg, rfl⟩⟩ := typedef_pass_kept fuel cfg attrs apis tds ht n i o an hm
    · have hi : i.ty = .path segs args := Option.some.inj ha
      exact hord.typedefs _ _ ⟨_, _, _, _, hm', rfl, rfl⟩ _ (by rw [hi]; exact .path (.inl hy))
    · obtain ⟨r, h1, h2⟩ := converted_name hk.converted (Option.some.inj ha) hy
      have hr := hord.typedefs _ _ ⟨_, _, _, _, hm', rfl, rfl⟩ _ h1
      rcases h2 with h2 | ⟨cpp, h2⟩ | h2
      · rw [hord.builtin _ (.inl h2)]; exact Nat.zero_le _
      · rw [hord.builtin _ (.inr ((grows_named (convert_ok_grows hk.converted) (grows_named hg hst)).get h2))]
        exact Nat.zero_le _
      · rw [tdefEnv_typedefs] at h2
        cases h2 with
        | refl => exact hr
        | tail _ h3 => obtain ⟨⟨_, _, h4, _⟩, _⟩ := h3; cases h4
  have hhops : ∀ x y, ReflTransGen (Hop (podEnv cfg tds).typedefs) x y → depth y ≤ depth x := by
    intro x y h
    induction h with
    | refl => exact Nat.le_refl _
    | tail _ h ih => exact Nat.le_trans (hhop _ _ h) ih
  refine ⟨depth, fun n d a hm q hq => ?_⟩
  obtain ⟨hm', -, -, pod, s, s', out, -, hth, hg, hk⟩ := pod_pass_kept fuel hash cfg attrs tds v hv n d a hm
  have hf : ∀ f ∈ d.fields, ∀ r, WrittenAs n.name.ns f.2.2 r → depth r < depth n.name := by
    have hin : ∃ u, Api.struct n d u ∈ apis.apis := by
      obtain ⟨s, out, ht', hx, rfl⟩ := typedef_pass fuel cfg attrs apis tds ht
      rcases mem_extend _ _ hm' with hm | hm | hm
      · rcases mem_extend _ _ hm with hm | hm | hm
        · cases hm
        · obtain ⟨a, ha, s1, s2, hf⟩ := ht'.all2.right hm
          generalize hb : Api.struct n d () = b at hf
          cases hf with
          | other hne =>
            cases a with
            | struct => cases hb; exact ⟨_, ha⟩
            | _ => cases hb
          | _ => cases hb
        · cases hm
      · rw [List.mem_map] at hm
        obtain ⟨z, hz, e⟩ := hm
        rcases hx z hz with ⟨id, rs, cpp, rfl⟩ | hzi
        · cases e
        · have hzi := hzi.ignored
          exact absurd e (by cases z <;> first | (intro e; cases e; done) | cases hzi)
      · cases hm
    obtain ⟨u, hin⟩ := hin
    exact fun f hf r hr => hord.fields _ _ ⟨_, _, _, f, hin, hf, rfl, rfl⟩ r hr
  rcases List.mem_append.1 hq with hq | hq
  · obtain ⟨id, b, segs, args, ho, -, hb, hqn⟩ := (hk.definitions q).1 hq
    obtain ⟨f, hfm, s1, s2, hst1, hg1, -⟩ := (hth.between (Q := fun s s' => Grows s.concretes s'.concretes)
      (fun _ => .refl) (fun _ _ _ => Grows.trans) (fun _ _ _ _ => fieldStep_grows)).right ho
    cases hst1 with
    | converted hc =>
      obtain ⟨r, h1, h2⟩ := converted_name hc hb hqn
      have hr := hf _ hfm _ h1
      rcases h2 with h2 | ⟨cpp, h2⟩ | h2
      · rw [hord.builtin _ (.inl h2)]; exact Nat.lt_of_le_of_lt (Nat.zero_le _) hr
      · rw [hord.builtin _ (.inr ((grows_named (convert_ok_grows hc) (grows_named hg1 (grows_named hg hst'))).get h2))]
        exact Nat.lt_of_le_of_lt (Nat.zero_le _) hr
      · exact Nat.lt_of_le_of_lt (hhops _ _ h2) hr
  · obtain ⟨f, hfm, vis, id, segs, args, rfl, -, hqn⟩ := (hk.bases q).1 hq
    exact hf _ hfm _ (.path (.inl hqn))

/-! ### The header -/

theorem header_in_order {hash : Config → Nat} {sigOf : RustSig → RustFnSig} {cfg : Config} {cb : Callbacks}
    {items root : List BindgenItem} {depth : QName → Nat} (hord : InOrder cfg depth (HeaderTypedef root) (HeaderField root))
    (hroot : RootIs items root) {v : ApiVec Unit Unit Unit} (h : parseBindgenItems hash sigOf cfg cb items = some (.ok v)) :
    InOrder cfg depth (ItemTypedef v.apis) (ItemField v.apis) ∧
    ∀ n r c, .concreteType n r c ∈ v.apis → InstantiationName cfg n.name := by
  have key : ∀ a ∈ v.apis, (∀ n i o u, a = .typedef n i o u → HeaderTypedef root n.name i.ty) ∧
      (∀ n d u, a = .struct n d u → ∀ f ∈ d.fields, HeaderField root n.name f.2.2) ∧
      ∀ n r c, a = .concreteType n r c → InstantiationName cfg n.name := by
    intro a ha
    rcases parsed_from hash sigOf cfg cb items root v h hroot a ha with ⟨_, _, _, _, _, _, _, ha⟩ | ⟨b, hab, hb⟩
    · rw [ha]
      exact ⟨(fun _ _ _ _ e => by cases e), (fun _ _ _ e => by cases e), (fun _ _ _ e => by cases e)⟩
    · rcases hab with rfl | rfl
      · rcases hb with hb | ⟨ns, l, i, o, hm, hi, hfate, hfrom, id, hid, -⟩
        · rcases hb with ⟨-, rfl⟩ | ⟨_, -, rfl⟩ | ⟨_, -, _, -, rfl⟩ | ⟨_, _, -, rfl⟩ | ⟨e, he, rfl⟩
          · exact ⟨(fun _ _ _ _ e => by cases e), (fun _ _ _ e => by cases e), (fun _ _ _ e => by cases e)⟩
          · exact ⟨(fun _ _ _ _ e => by cases e), (fun _ _ _ e => by cases e), (fun _ _ _ e => by cases e)⟩
          · exact ⟨(fun _ _ _ _ e => by cases e), (fun _ _ _ e => by cases e), (fun _ _ _ e => by cases e)⟩
          · exact ⟨(fun _ _ _ _ e => by cases e), (fun _ _ _ e => by cases e), (fun _ _ _ e => by cases e)⟩
          · refine ⟨(fun _ _ _ _ e => by cases e), (fun _ _ _ e => by cases e), fun n r c e' => ?_⟩
            cases e'
            exact ⟨rfl, .inl ⟨e, he, rfl⟩⟩
        · have hnot : ∀ {c : NullApi}, c.isIgnored = true → (∀ n i o u, c = .typedef n i o u → HeaderTypedef root n.name i.ty) ∧
              (∀ n d u, c = .struct n d u → ∀ f ∈ d.fields, HeaderField root n.name f.2.2) ∧
              ∀ n r x, c = .concreteType n r x → InstantiationName cfg n.name := by
            intro c hc
            refine ⟨fun _ _ _ _ e => ?_, fun _ _ _ e => ?_, fun _ _ _ e => ?_⟩ <;> (rw [e] at hc; cases hc)
          cases hfate <;> rcases hfrom with hf | hf | hf | ⟨f, hf, rfl⟩ <;> first | (cases hf; done) | skip
          · rw [List.mem_singleton.1 hf]; exact hnot rfl
          · rw [List.mem_singleton.1 hf]
            exact ⟨(fun _ _ _ _ e => by cases e), (fun _ _ _ e => by cases e), (fun _ _ _ e => by cases e)⟩
          · rw [List.mem_singleton.1 hf]
            refine ⟨(fun _ _ _ _ e => by cases e), ?_, (fun _ _ _ e => by cases e)⟩
            intro n d u e f hf
            cases e
            exact .mk hm hi hf
          · rw [List.mem_singleton.1 hf]; exact hnot rfl
          · rw [List.mem_singleton.1 hf]
            exact ⟨(fun _ _ _ _ e => by cases e), (fun _ _ _ e => by cases e), (fun _ _ _ e => by cases e)⟩
          · rename_i hff
            obtain ⟨id, -, rfl⟩ := (foreign_found hff).2.2.2 _ hf
            exact hnot rfl
          · exact ⟨(fun _ _ _ _ e => by cases e), (fun _ _ _ e => by cases e), (fun _ _ _ e => by cases e)⟩
          · cases hid
          · rw [List.mem_singleton.1 hf]; exact hnot rfl
          · rename_i hu _ _ _ ho
            rw [List.mem_singleton.1 hf]
            refine ⟨?_, (fun _ _ _ e => by cases e), (fun _ _ _ e => by cases e)⟩
            intro n i o u e
            cases e
            exact .use hm hi hu
          · rw [List.mem_singleton.1 hf]
            exact ⟨(fun _ _ _ _ e => by cases e), (fun _ _ _ e => by cases e), (fun _ _ _ e => by cases e)⟩
          · rw [List.mem_singleton.1 hf]
            refine ⟨?_, (fun _ _ _ e => by cases e), (fun _ _ _ e => by cases e)⟩
            intro n i o u e
            cases e
            exact .type hm hi
      · exact ⟨(fun _ _ _ _ e => by cases e), (fun _ _ _ e => by cases e), (fun _ _ _ e => by cases e)⟩
  refine ⟨⟨hord.builtin, ?_, ?_⟩, fun n r c hm => (key _ hm).2.2 n r c rfl⟩
  · rintro _ _ ⟨n, i, o, u, hm, rfl, rfl⟩
    exact hord.typedefs _ _ ((key _ hm).1 n i o u rfl)
  · rintro _ _ ⟨n, d, u, f, hm, hf, rfl, rfl⟩
    exact hord.fields _ _ ((key _ hm).2.1 n d u rfl f hf)

/-- **C71 (no class holds itself)**: if the types of the header are in order, no class holds itself after the POD
analysis. -/
theorem header_held {fuel : Nat} {hash : Config → Nat} {sigOf : RustSig → RustFnSig} {cfg : Config} {cb : Callbacks}
    {items root : List BindgenItem} (hord : HeldInOrder cfg root) (hroot : RootIs items root) :
    ∀ apis tds v, parseBindgenItems hash sigOf cfg cb items = some (.ok apis) →
      convertTypedefTargets fuel cfg cb.attrs apis = .done tds →
      analyzePodApis fuel hash cfg cb.attrs tds = .done (.ok v) → NoSelfHolding v.apis := by
  intro apis tds v h1 h2 h3
  obtain ⟨depth, hord⟩ := hord
  obtain ⟨h4, h5⟩ := header_in_order hord hroot h1
  exact in_order_held h4 h5 h2 h3

section
variable {fuel : Nat} {hash : Config → Nat} {sigOf : RustSig → RustFnSig} {policy : UnsafePolicy} {cfg : Config}
  {force : Bool} {cb : Callbacks} {items root : List BindgenItem} {o : CppOptions} {cxxgenHeader inclusions : String}
  {includes : List String} {r : Nat} {found : List NullApi}

/-- **C71 (headers)**: the conversion of a well-named header, whose types are in an order in which each comes after what
it is built from, panics only over overrides of methods which take owners, or where overrides are all that needs C++. -/
theorem convert_ordered_panics (hr : cb.rootMod = some r) (hc : configApis hash sigOf cfg = some (.ok found))
    (hroot : RootIs items root) (hsafe : ∀ ns l, Module [] root ns l → ∀ i ∈ l, ItemSafe i)
    (w : WellNamed hash cfg cb root) (hord : HeldInOrder cfg root)
    (h : convertAll fuel hash sigOf policy cfg force cb (some items) o cxxgenHeader inclusions includes = .panic) :
    ∃ out, convertApisFrom fuel hash sigOf policy cfg force cb (some items) = .done (.ok out) ∧
      (OverridesOwner out.apis ∨
        ((∃ n sub d, .rustSubclassFn n sub d ∈ out.apis) ∧
          ∀ a ∈ out.apis, NeedsCpp a → ∃ n sub d, a = .rustSubclassFn n sub d)) :=
  convert_header_panics hr hc hroot hsafe w (header_held hord hroot) h

/-- **C71 (headers, no Rust subclasses)**: without Rust subclasses the conversion of such a header never panics. -/
theorem convert_ordered_safe (hsub : cfg.subclasses = []) (hr : cb.rootMod = some r)
    (hc : configApis hash sigOf cfg = some (.ok found)) (hroot : RootIs items root)
    (hsafe : ∀ ns l, Module [] root ns l → ∀ i ∈ l, ItemSafe i) (w : WellNamed hash cfg cb root)
    (hord : HeldInOrder cfg root) :
    convertAll fuel hash sigOf policy cfg force cb (some items) o cxxgenHeader inclusions includes ≠ .panic :=
  convert_header_safe hsub hr hc hroot hsafe w (header_held hord hroot)

end

end Verif
