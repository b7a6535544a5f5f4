import Verif.RsPipeProps
import Verif.FnDepProps
import Verif.RsTypeProps

/-!
# The types in the signatures of the bridge

A function in the bridge mentions types by their last name only. Here it is shown where those names come from: they are
built in, or they are those of items which are delivered as well, and so, if these are types, are declared in the bridge.
-/

set_option autoImplicit false

namespace Verif

/-- Somewhere in a type is a path with this last name. -/
inductive SaysName : Ty → String → Prop
  | self {segs : List String} {args : List Ty} {s : String} (h : segs.getLast? = some s) : SaysName (.path segs args) s
  | arg {segs : List String} {args : List Ty} {t : Ty} {s : String} (hm : t ∈ args) (h : SaysName t s) :
      SaysName (.path segs args) s
  | ref {mu : Bool} {lt : Option String} {e : Ty} {s : String} (h : SaysName e s) : SaysName (.ref mu lt e) s
  | ptr {mu : Bool} {e : Ty} {s : String} (h : SaysName e s) : SaysName (.ptr mu e) s
  | array {e : Ty} {n : String} {s : String} (h : SaysName e s) : SaysName (.array e n) s

theorem eraseAll_mem {t : Ty} : ∀ {l : List Ty}, t ∈ Ty.eraseAll l → ∃ u ∈ l, t = u.erase
  | [], h => by cases h
  | u :: l, h => by
    rw [Ty.eraseAll] at h
    rcases List.mem_cons.1 h with rfl | h
    · exact ⟨u, .head _, rfl⟩
    · obtain ⟨v, hv, e⟩ := eraseAll_mem h
      exact ⟨v, .tail _ hv, e⟩

theorem mem_eraseAll {t : Ty} : ∀ {l : List Ty}, t ∈ l → t.erase ∈ Ty.eraseAll l
  | [], h => by cases h
  | u :: l, h => by
    rw [Ty.eraseAll]
    rcases List.mem_cons.1 h with rfl | h
    · exact .head _
    · exact .tail _ (mem_eraseAll h)

theorem SaysName.erase {t : Ty} {s : String} (h : SaysName t s) : SaysName t.erase s := by
  induction h with
  | self h => rw [Ty.erase]; exact .self h
  | arg hm _ ih => rw [Ty.erase]; exact .arg (mem_eraseAll hm) ih
  | ref _ ih => rw [Ty.erase]; exact .ref ih
  | ptr _ ih => rw [Ty.erase]; exact .ptr ih
  | array _ ih => rw [Ty.erase]; exact .array ih

mutual
theorem SaysName.unerase {s : String} : ∀ t : Ty, SaysName t.erase s → SaysName t s
  | .path segs args, h => by
    rw [Ty.erase] at h
    cases h with
    | self h => exact .self h
    | arg hm h =>
      obtain ⟨u, hu, hm⟩ := SaysName.uneraseAll args _ hm h
      exact .arg hu hm
  | .ref mu lt e, h => by
    rw [Ty.erase] at h
    cases h with | ref h => exact .ref (SaysName.unerase e h)
  | .ptr mu e, h => by
    rw [Ty.erase] at h
    cases h with | ptr h => exact .ptr (SaysName.unerase e h)
  | .array e n, h => by
    rw [Ty.erase] at h
    cases h with | array h => exact .array (SaysName.unerase e h)
  | .other x, h => by rw [Ty.erase] at h; cases h
theorem SaysName.uneraseAll {s : String} : ∀ (l : List Ty) (t : Ty), t ∈ Ty.eraseAll l → SaysName t s → ∃ u ∈ l, SaysName u s
  | [], _, h, _ => by cases h
  | u :: l, t, h, hm => by
    rw [Ty.eraseAll] at h
    rcases List.mem_cons.1 h with rfl | h
    · exact ⟨u, .head _, SaysName.unerase u hm⟩
    · obtain ⟨v, hv, hm⟩ := SaysName.uneraseAll l t h hm
      exact ⟨v, .tail _ hv, hm⟩
end

mutual
theorem SaysName.qualified {s : String} : ∀ (t u : Ty), unqualify t = some u → SaysName u s → SaysName t s
  | .path segs args, u, h, hm => by
    simp only [unqualify] at h
    split at h
    · cases h
    · rename_i x hx
      obtain ⟨l, hl, rfl⟩ := Option.map_eq_some_iff.1 h
      cases hm with
      | self h => cases h; exact .self hx
      | arg hm h =>
        obtain ⟨v, hv, hm⟩ := SaysName.qualifiedAll args l hl _ hm h
        exact .arg hv hm
  | .ref mu lt e, u, h, hm => by
    simp only [unqualify] at h
    obtain ⟨x, hx, rfl⟩ := Option.map_eq_some_iff.1 h
    cases hm with | ref hm => exact .ref (SaysName.qualified e x hx hm)
  | .ptr mu e, u, h, hm => by
    simp only [unqualify] at h
    obtain ⟨x, hx, rfl⟩ := Option.map_eq_some_iff.1 h
    cases hm with | ptr hm => exact .ptr (SaysName.qualified e x hx hm)
  | .array e n, u, h, hm => by simp only [unqualify] at h; cases h; exact hm
  | .other x, u, h, hm => by simp only [unqualify] at h; cases h; exact hm
theorem SaysName.qualifiedAll {s : String} : ∀ (l l' : List Ty), unqualifyAll l = some l' → ∀ t ∈ l', SaysName t s →
    ∃ u ∈ l, SaysName u s
  | [], l', h, t, ht, _ => by simp only [unqualifyAll] at h; cases h; cases ht
  | u :: l, l', h, t, ht, hm => by
    simp only [unqualifyAll] at h
    split at h
    · rename_i t' l'' h1 h2
      cases h
      rcases List.mem_cons.1 ht with rfl | ht
      · exact ⟨u, .head _, SaysName.qualified u _ h1 hm⟩
      · obtain ⟨v, hv, hm⟩ := SaysName.qualifiedAll l _ h2 t ht hm
        exact ⟨v, .tail _ hv, hm⟩
    · cases h
end

/-- What is mentioned is used, under a name ending so. -/
theorem SaysName.uses {t : Ty} {s : String} (h : SaysName t s) (hs : s ≠ "root" ∧ s ≠ "output") :
    ∃ q, UsesName t q ∧ q.name = s := by
  induction h with
  | @self segs args s h =>
    have key : ∃ q, QName.ofTypePath segs = some q ∧ q.name = s := by
      cases segs with
      | nil => cases h
      | cons a r =>
        have hf : ∀ (l : List String), l.getLast? = some s → ∃ q, QName.fromSegs l = some q ∧ q.name = s := by
          intro l hl
          obtain ⟨l', rfl⟩ := List.getLast?_eq_some_iff.1 hl
          exact ⟨_, fromSegs_append l' s, rfl⟩
        rw [QName.ofTypePath]
        split
        · rename_i ha
          cases r with
          | nil =>
            cases h
            rcases ha with rfl | rfl
            · exact absurd rfl hs.1
            · exact absurd rfl hs.2
          | cons b r => exact hf _ (by rw [List.getLast?_cons_cons] at h; exact h)
        · exact hf _ h
    obtain ⟨q, hq, e⟩ := key
    exact ⟨q, .self hq, e⟩
  | arg hm _ ih => obtain ⟨q, hq, e⟩ := ih hs; exact ⟨q, .arg hm hq, e⟩
  | ref _ ih => obtain ⟨q, hq, e⟩ := ih hs; exact ⟨q, .ref hq, e⟩
  | ptr _ ih => obtain ⟨q, hq, e⟩ := ih hs; exact ⟨q, .ptr hq, e⟩
  | array _ ih => obtain ⟨q, hq, e⟩ := ih hs; exact ⟨q, .array hq, e⟩

/-- A type in a signature mentions what the type it stands for does. -/
theorem InBridge.mentions {t u : Ty} (h : InBridge (.plain t) (.plain u)) {s : String} (hm : SaysName u s) : SaysName t s := by
  obtain ⟨x, e, hu⟩ := h
  cases x with
  | impl => cases e
  | plain y =>
    rw [RTy.unqualify] at hu
    obtain ⟨z, hz, e'⟩ := Option.map_eq_some_iff.1 hu
    cases e'
    simp only [RTy.erase, RTy.plain.injEq] at e
    exact .unerase _ (e ▸ (SaysName.qualified _ _ hz hm).erase)

section
variable {fuel : Nat} {hash : Config → Nat} {sigOf : RustSig → RustFnSig} {policy : UnsafePolicy} {cfg : Config}
  {force : Bool} {cb : Callbacks} {items : List BindgenItem} {out : FnApiVec}

/-- Where a name in a signature of the bridge comes from. -/
inductive NameFrom (cfg : Config) (apis : List FnApi) (typedefs : AMap QName Ty) (deps : List QName) (file : RsFile)
    (q : QName) : Prop
  /-- It is built in. -/
  | builtIn (h : isKnownType q = true)
  /-- It is that of a type, which the bridge declares. -/
  | declared (b : FnApi) (hb : b ∈ apis) (hn : b.name = q) (kind : TypeKind) (mv ds : Bool) (ht : TypeItem b kind mv ds 0 ∨
      ∃ n pod o, b = .externCppType n pod o) (ns cxx : Option String) (al : Option (List String))
      (h : .type ns cxx q.name al ∈ file.externC)
  /-- It is that of a type of Rust, which the bridge declares. -/
  | rustType (n : ApiName) (s : String) (hb : .rustType n s ∈ apis) (hn : n.name = q) (h : .type q.name ∈ file.externRust)
  /-- It is that of some other item delivered: a template, a typedef or what is not a type at all. If it is that of one
  given up then because of something unknown. -/
  | other (b : FnApi) (hb : b ∈ apis) (hn : b.name = q)
      (h : (∃ kind mv ds g, TypeItem b kind mv ds (g + 1)) ∨
        (∀ kind mv ds g, ¬ TypeItem b kind mv ds g) ∧ (∀ n pod o, b ≠ .externCppType n pod o) ∧ ∀ n s, b ≠ .rustType n s)
      (hi : b.isIgnored = true → ∃ n x c, b = .ignoredItem n (.unknownDependentType x) c ∨ b.IsDup)
  /-- It belongs to a subclass asked for. -/
  | helper (sc : SubclassReq) (h : sc ∈ cfg.subclasses)
      (hq : q = ⟨[], sc.subclass ++ "Holder"⟩ ∨ q = ⟨[], sc.subclass ++ "Cpp"⟩)
  /-- It is in what a typedef the function depends on leads to. -/
  | typedef (d : QName) (hd : d ∈ deps) (x : QName) (t : Ty) (h : Relation.ReflTransGen (Hop typedefs) d x)
      (hx : AMap.get? typedefs x = some t) (hu : UsesName t q)

variable (p : ConvertStages fuel hash sigOf policy cfg force cb items out)
include p

namespace ConvertStages

/-- What has been collected is delivered, unless a C type takes its name. -/
theorem collected_delivered {b : FnApi} (hb : b ∈ p.collected.apis) :
    ∃ b' ∈ out.apis, b'.name = b.name ∧ (b' = b ∨ b'.IsDup) := by
  have hget := (ApiVec.get?_some_iff p.collected_inv b.name b).2 ⟨hb, rfl⟩
  have hout := (congrArg (fun v => ApiVec.get? v b.name) p.hout).trans (appendCtypes_get p.collected p.collected_inv b.name)
  rw [hget] at hout
  have same : out.get? b.name = some b → ∃ b' ∈ out.apis, b'.name = b.name ∧ (b' = b ∨ b'.IsDup) := fun h =>
    ⟨b, ((ApiVec.get?_some_iff p.out_inv _ _).1 h).1, rfl, .inl rfl⟩
  split at hout
  · split at hout
    · rename_i ty hty
      obtain ⟨h1, h2⟩ := (ApiVec.get?_some_iff p.out_inv _ _).1 hout
      exact ⟨_, h1, h2, .inr rfl⟩
    · exact same hout
  · exact same hout

/-- A function delivered has been collected. -/
theorem function_collected {n : ApiName} {f : FuncToConvert} {a : FnAnalysis} (h : .function n f a ∈ out.apis) :
    .function n f a ∈ p.collected.apis := by
  rcases p.delivered_reachable h with ⟨_, _, e⟩ | ⟨z, hz, -, e, hr⟩
  · cases e
  · rcases e with rfl | e
    · exact (p.collected_iff _).2 ⟨hz, hr⟩
    · cases e

/-- How a function delivered was analysed. -/
theorem delivered_run {env : FnEnv} {s0 : FnState} (henv : FnEnv.ofApis fuel hash policy cfg force p.allocs.apis = some (env, s0))
    {n : ApiName} {f : FuncToConvert} {a : FnAnalysis} (h : .function n f a ∈ out.apis) :
    ∃ s s' name soph pre, analyzeForeignFn env s name f soph pre = .done (s', a, n) := by
  have hx := (p.delivered_function h).1
  obtain ⟨q⟩ := p.fn_stages
  obtain ⟨rfl, rfl⟩ : q.env = env ∧ q.s0 = s0 := by
    have e := q.henv.symm.trans henv
    cases e
    exact ⟨rfl, rfl⟩
  have ho := items_from q hx
  generalize hg : (Api.function n f a : FnPre2Api) = g at ho
  cases ho with
  | @kept z hz hf =>
    cases z with
    | function => cases hf
    | _ => cases hg
  | @fn r hr =>
    cases hg
    exact ⟨_, _, _, _, _, q.trace.ok r hr⟩
  | override_ => cases hg
  | trait_ => cases hg
  | inst => cases hg
  | marker h => subst hg; cases h

variable {policy' : UnsafePolicy} {includes : List String} {headerName : Option String} {file : RsFile}
  (hfile : generateRsCode hash policy' cfg includes headerName out.apis = some file)
include hfile

omit p sigOf policy force cb items fuel in
/-- A type which the bridge has to have is declared in it. -/
theorem type_declared {b : FnApi} (hb : b ∈ out.apis) {q : QName} {x : Bool} (h : HasBridgeType b q x) :
    ∃ ns cxx al, .type ns cxx q.name al ∈ file.externC :=
  ⟨_, _, _, (bridge_types_exact hfile _ _ _ _).2 ⟨b, hb, q, x, h, rfl⟩⟩

/-- What an item delivered depends on is in the bridge, or is not for the bridge. -/
theorem item_dep_from {x : FnApi} (h : x ∈ p.collected.apis) (hx : x.isIgnored = false) {q : QName} (hq : q ∈ FnApi.deps x)
    (typedefs : AMap QName Ty) (deps : List QName) : NameFrom cfg out.apis typedefs deps file q := by
  rcases p.delivered.closed _ h hx q hq with h | ⟨b, hb, hn, hi⟩ | ⟨sc, hsc, hh, -⟩
  · exact .builtIn h
  · obtain ⟨b', hb', hn', e⟩ := p.collected_delivered hb
    have hbq : b'.name = q := hn'.trans hn
    have hig : b'.isIgnored = true → ∃ n x c, b' = .ignoredItem n (.unknownDependentType x) c ∨ b'.IsDup := by
      intro hx
      rcases e with rfl | e
      · obtain ⟨n, x, c, e⟩ := hi hx
        exact ⟨n, x, c, .inl e⟩
      · exact ⟨⟨q, none⟩, q, none, .inr e⟩
    have ty : ∀ kind mv ds, TypeItem b' kind mv ds 0 → NameFrom cfg out.apis typedefs deps file q := by
      intro kind mv ds ht
      obtain ⟨ns, cxx, al, h⟩ := type_declared hfile hb' (.type ht)
      exact .declared b' hb' hbq kind mv ds (.inl ht) ns cxx al (hbq ▸ h)
    have other : (∀ kind mv ds g, ¬ TypeItem b' kind mv ds g) → (∀ n pod o, b' ≠ .externCppType n pod o) →
        (∀ n s, b' ≠ .rustType n s) → NameFrom cfg out.apis typedefs deps file q := fun h1 h2 h3 =>
      .other b' hb' hbq (.inr ⟨h1, h2, h3⟩) hig
    cases b' with
    | struct n d an =>
      have ht := TypeItem.struct n d an
      cases hg : an.pod.numGenerics with
      | zero => exact ty _ _ _ (hg ▸ ht)
      | succ g => exact .other _ hb' hbq (.inl ⟨_, _, _, g, hg ▸ ht⟩) hig
    | enum => exact ty _ _ _ (.enum _ _)
    | concreteType => exact ty _ _ _ (.concreteType _ _ _)
    | forwardDeclaration => exact ty _ _ _ (.forwardDeclaration _ _)
    | opaqueTypedef => exact ty _ _ _ (.opaqueTypedef _ _)
    | externCppType n pod o =>
      obtain ⟨ns, cxx, al, h⟩ := type_declared hfile hb' (.externCpp n pod o)
      exact .declared _ hb' hbq .pod true true (.inr ⟨n, pod, o, rfl⟩) ns cxx al (hbq ▸ h)
    | rustType n s =>
      refine .rustType n s hb' hbq ?_
      obtain ⟨codes, P⟩ := rs_parts hfile
      obtain ⟨c, -, hc⟩ := P.each.left hb'
      refine (P.mem_externRust _).2 ⟨_, hb', c, hc, ?_⟩
      have hic := item_code hc
      generalize hx : (Api.rustType n s : FnApi) = x at hic
      cases hic with
      | type hi => subst hx; cases hi
      | rustType n' s' path ha hp hl =>
        rw [← hx] at ha
        cases ha
        rw [← hbq]
        exact List.mem_cons_self
      | bindgen ha => subst hx; rcases ha with ⟨_, _, ha⟩ | ⟨_, _, _, _, ha⟩ <;> cases ha
      | nothing ha => subst hx; rcases ha with ⟨_, _, ha⟩ | ⟨_, _, ha⟩ <;> cases ha
      | makeString _ ha => subst hx; cases ha
      | fn _ _ _ _ ha => subst hx; cases ha
      | ctype _ _ ha => subst hx; cases ha
      | rustFn _ _ _ ha => subst hx; cases ha
      | subclassFn _ _ _ _ ha => subst hx; cases ha
      | subclass _ _ _ ha => subst hx; cases ha
      | externCpp _ _ _ _ ha => subst hx; cases ha
      | failed _ _ _ ha => subst hx; cases ha
    | _ => exact other (fun _ _ _ _ h => by cases h) (fun _ _ _ h => by cases h) (fun _ _ h => by cases h)
  · exact .helper sc hsc hh

/-- What a function depends on is in the bridge, or is not for the bridge. -/
theorem dep_from {n : ApiName} {f : FuncToConvert} {a : FnAnalysis} (h : .function n f a ∈ out.apis)
    {typedefs : AMap QName Ty} {q : QName} (hq : AccountedFor typedefs a.deps q) :
    NameFrom cfg out.apis typedefs a.deps file q := by
  rcases hq with ⟨d, hd⟩ | hq | ⟨d, hd, x, t, h1, h2, h3⟩
  · exact .builtIn (by unfold isKnownType; rw [hd]; rfl)
  · exact p.item_dep_from hfile (p.function_collected h) rfl hq _ _
  · exact .typedef d hd x t h1 h2 h3

/-- **C68 (partial)**: a name in the signature of a function of the bridge is built in, or that of a type which the
bridge declares, unless it is that of a template or comes out of a typedef. The parameters are missing which the analysis
looks at twice: those of constructors and destructors, and the place for a result. -/
theorem signature_names_partial {env : FnEnv} {s0 : FnState}
    (henv : FnEnv.ofApis fuel hash policy cfg force p.allocs.apis = some (env, s0))
    {n : ApiName} {f : FuncToConvert} {a : FnAnalysis} (h : .function n f a ∈ out.apis) {nonPod : List QName} {b : BridgeFn}
    (hb : bridgeFn n.name a nonPod = some b) {s : String} (hs : s ≠ "root" ∧ s ≠ "output") :
    (∀ u, b.sig.ret = some (.plain u) → SaysName u s →
      s = "UniquePtr" ∨ ∃ q, q.name = s ∧ NameFrom cfg out.apis env.conv.typedefs a.deps file q) ∧
    (a.kind.Simple → (∀ d ∈ a.paramDetails, ¬ d.ForResult) → ∀ x ∈ b.sig.params, ∀ u, x.ty = .plain u → SaysName u s →
      ∃ q, q.name = s ∧ NameFrom cfg out.apis env.conv.typedefs a.deps file q) := by
  obtain ⟨s1, s2, name, soph, pre, hrun⟩ := p.delivered_run henv h
  obtain ⟨-, hps, hret⟩ := bridge_types hb
  constructor
  · intro u hu hm
    rcases hret with ⟨-, hn⟩ | ⟨t, u', ht, hu', hin⟩
    · rw [hn] at hu; cases hu
    · rw [hu] at hu'
      cases hu'
      have hsay := hin.mentions hm
      rw [bridge_return_agrees hrun] at ht
      obtain ⟨c, hc, ht⟩ := Option.bind_eq_some_iff.1 ht
      split at ht <;> cases ht
      have done : SaysName c.unwrappedType s →
          ∃ q, q.name = s ∧ NameFrom cfg out.apis env.conv.typedefs a.deps file q := by
        intro hsay
        obtain ⟨q, hq, e⟩ := hsay.uses hs
        exact ⟨q, e, p.dep_from hfile h (return_deps hrun hc hq)⟩
      rw [TypeConversionPolicy.unconvertedRustType.eq_def] at hsay
      split at hsay
      · cases hsay with
        | self h => cases h; exact .inl rfl
        | arg hm h => cases List.mem_singleton.1 hm; exact .inr (done h)
      · exact .inr (done hsay)
  · intro hk hr x hx u hu hm
    obtain ⟨t, ht, hin⟩ := hps.right hx
    rw [hu] at hin
    have hsay := hin.mentions hm
    rw [bridge_params_agree hrun] at ht
    obtain ⟨d, hd, rfl⟩ := List.mem_map.1 ht
    obtain ⟨q, hq, e⟩ := hsay.uses hs
    exact ⟨q, e, p.dep_from hfile h (param_deps_partial hrun hk hd (hr d hd) hq)⟩

end ConvertStages

/-! ## Names in the bridge -/

omit p hash cfg in
/-- The names an item has declared in the C++ part of the bridge: none, or its own name in the bridge. -/
theorem item_declares {e : RsEnv} {a : FnApi} {c : ApiCode} (h : ItemCode e a c) (hs : ∀ n sup, a ≠ .subclass n sup)
    (hm : ∀ n, a ≠ .stringConstructor n) :
    (c.externC.filterMap BridgeDecl.declares).Sublist (FnApi.cxxbridgeName a).toList := by
  cases h with
  | type hi ht hc =>
    have hn : FnApi.cxxbridgeName a = some a.name.name := by cases hi <;> rfl
    rw [hn]
    cases hc <;> first | exact List.Sublist.refl _ | exact List.nil_sublist _
  | makeString n ha => exact absurd ha (hm n)
  | fn n f an r ha hr =>
    subst ha
    rcases fn_code hr with ⟨-, rfl⟩ | ⟨-, b, -, he, hb, -⟩
    · exact List.nil_sublist _
    · show ((r.externC.map BridgeDecl.fn).filterMap BridgeDecl.declares).Sublist [an.cxxbridgeName]
      rw [he, ← hb]
      exact List.Sublist.refl _
  | bindgen => exact List.nil_sublist _
  | ctype n q ha => subst ha; exact List.Sublist.refl _
  | rustType => exact List.nil_sublist _
  | rustFn => exact List.nil_sublist _
  | subclassFn n sub d c ha hc =>
    rw [genSubclassFn] at hc
    obtain ⟨_, -, hc⟩ := Option.bind_eq_some_iff.1 hc
    obtain ⟨_, -, rfl⟩ := Option.map_eq_some_iff.1 hc
    exact List.nil_sublist _
  | subclass n sup c ha => exact absurd ha (hs n sup)
  | externCpp n p o x ha => subst ha; exact List.Sublist.refl _
  | failed n err ctx ha => cases ctx <;> exact List.nil_sublist _
  | nothing => exact List.nil_sublist _

omit p in
/-- **C68 (partial)**: no two declarations in the C++ part of the bridge have the same name, if no two items have. What is
missing is what is made up: the helpers of subclasses and the function to make strings. -/
theorem declared_names_distinct_partial {policy : UnsafePolicy} {includes : List String} {headerName : Option String} {apis : List FnApi}
    {f : RsFile} (h : generateRsCode hash policy cfg includes headerName apis = some f)
    (hn : (apis.filterMap FnApi.cxxbridgeName).Nodup) (hs : ∀ n sup, .subclass n sup ∉ apis)
    (hm : ∀ n, .stringConstructor n ∉ apis) : (f.externC.filterMap BridgeDecl.declares).Nodup := by
  obtain ⟨codes, P⟩ := rs_parts h
  obtain ⟨incls, hi, e⟩ := P.externC
  have hincl : incls.filterMap BridgeDecl.declares = [] := by
    have key : ∀ l : List String, (l.map BridgeDecl.incl).filterMap BridgeDecl.declares = [] := by
      intro l
      induction l with
      | nil => rfl
      | cons x l ih => exact ih
    unfold includeItems at hi
    split at hi
    · obtain ⟨x, -, rfl⟩ := Option.map_eq_some_iff.1 hi
      exact key _
    · rw [← Option.some.inj hi]
      exact key _
  rw [e, List.filterMap_append, hincl, List.append_nil]
  refine List.Nodup.sublist ?_ hn
  have hall := P.each
  generalize RsEnv.ofApis hash policy cfg apis = env at hall
  clear P hi hincl e hn h
  induction hall with
  | nil => exact List.Sublist.refl _
  | @cons a c l r hac _ ih =>
    have h1 := item_declares (item_code hac) (fun n sup e => hs n sup (e ▸ List.mem_cons_self))
      (fun n e => hm n (e ▸ List.mem_cons_self))
    have h2 := ih (fun n sup h => hs n sup (List.mem_cons_of_mem _ h)) (fun n h => hm n (List.mem_cons_of_mem _ h))
    have e : (a :: l).filterMap FnApi.cxxbridgeName = (FnApi.cxxbridgeName a).toList ++ l.filterMap FnApi.cxxbridgeName := by
      cases hx : FnApi.cxxbridgeName a <;> simp [hx]
    rw [List.flatMap_cons, List.filterMap_append, e]
    exact h1.append h2

omit p hash cfg in
theorem filterMap_nodup_of {α β : Type} {f : α → Option β} : ∀ {l : List α}, l.Nodup →
    (∀ a ∈ l, ∀ b ∈ l, ∀ x, f a = some x → f b = some x → a = b) → (l.filterMap f).Nodup
  | [], _, _ => List.nodup_nil
  | a :: l, hn, h => by
    obtain ⟨h1, h2⟩ := List.nodup_cons.1 hn
    have ih := filterMap_nodup_of h2 fun a ha b hb => h a (.tail _ ha) b (.tail _ hb)
    cases hx : f a with
    | none => rw [List.filterMap_cons_none hx]; exact ih
    | some x =>
      rw [List.filterMap_cons_some hx, List.nodup_cons]
      refine ⟨fun hm => ?_, ih⟩
      obtain ⟨b, hb, e⟩ := List.mem_filterMap.1 hm
      exact h1 (h a (.head _) b (.tail _ hb) x hx e ▸ hb)

/-- C06, C52: the items delivered have different names in the bridge, unless a C type has the name of another. -/
theorem ConvertStages.bridge_names_nodup
    (hc : ∀ n q, .ctype n q ∈ out.apis → ∀ b ∈ out.apis, FnApi.cxxbridgeName b = some n.name.name → b = .ctype n q) :
    (out.apis.filterMap FnApi.cxxbridgeName).Nodup := by
  refine filterMap_nodup_of (List.Nodup.of_map _ p.out_inv.1) fun a ha b hb x hax hbx => ?_
  have from_ : ∀ a ∈ out.apis, FnApi.cxxbridgeName a = some x → (∃ n q, a = .ctype n q) ∨ a ∈ p.collected.apis := by
    intro a ha hax
    rcases p.delivered_reachable ha with h | ⟨z, hz, -, e, hr⟩
    · exact .inl h
    · rcases e with rfl | rfl
      · exact .inr ((p.collected_iff _).2 ⟨hz, hr⟩)
      · cases hax
  rcases from_ a ha hax with ⟨n, q, rfl⟩ | h1
  · exact (hc n q ha b hb (hbx.trans hax.symm)).symm
  · rcases from_ b hb hbx with ⟨n, q, rfl⟩ | h2
    · exact hc n q hb a ha (hax.trans hbx.symm)
    · exact p.delivered.bridge a h1 b h2 x hax hbx

/-- **C68 (partial)**: in a whole run without subclasses and C++ strings no two declarations in the C++ part of the
bridge have the same name, unless a C type has the name of another item. -/
theorem ConvertStages.declarations_distinct_partial {policy' : UnsafePolicy} {includes : List String} {headerName : Option String}
    {file : RsFile} (hfile : generateRsCode hash policy' cfg includes headerName out.apis = some file)
    (hc : ∀ n q, .ctype n q ∈ out.apis → ∀ b ∈ out.apis, FnApi.cxxbridgeName b = some n.name.name → b = .ctype n q)
    (hs : ∀ n sup, .subclass n sup ∉ out.apis) (hm : ∀ n, .stringConstructor n ∉ out.apis) :
    (file.externC.filterMap BridgeDecl.declares).Nodup :=
  declared_names_distinct_partial hfile (p.bridge_names_nodup hc) hs hm

end
end Verif
