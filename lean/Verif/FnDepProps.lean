import Verif.FnKindProps
import Verif.AbstractProps

/-!
# C56 for functions: the dependencies of a function cover its signature
-/

set_option autoImplicit false

namespace Verif

theorem known_unique_ptr : ∃ d, knownGet ⟨["cxx"], "UniquePtr"⟩ = some d := by
  have : (knownGet ⟨["cxx"], "UniquePtr"⟩).isSome = true := by decide_known
  exact Option.isSome_iff_exists.1 this

theorem known_rust_box : ∃ d, knownGet ⟨["rust"], "Box"⟩ = some d := by
  have : (knownGet ⟨["rust"], "Box"⟩).isSome = true := by decide_known
  exact Option.isSome_iff_exists.1 this

/-- The names in what Rust hands over are built in, or in the type which was converted. -/
theorem argConversion_uses {env : FnEnv} {m : ArgMode} {a : Annotated Ty} {self pl : Bool} {conv : TypeConversionPolicy}
    (hd : Describes a.kind a.ty) (h : argConversion env m a self pl = some conv) {q : QName}
    (hq : UsesName conv.convertedRustType q) : (∃ d, knownGet q = some d) ∨ UsesName a.ty q := by
  rw [argConversion] at h
  split at h
  · rename_i holder hk
    obtain ⟨x, _, rfl⟩ := Option.map_eq_some_iff.1 h
    rw [hk] at hd
    obtain ⟨segs, s, args, r, ht, hs⟩ := hd
    change UsesName (.path ["rust", "Box"] [.path [holder] []]) q at hq
    cases hq with
    | self hn => cases hn; exact .inl known_rust_box
    | arg hm hn =>
      cases List.mem_singleton.1 hm
      cases hn with
      | self hn =>
        have : q = ⟨[], holder⟩ := by
          rw [QName.ofTypePath] at hn
          split at hn <;> cases hn
          rfl
        subst this
        rw [ht]
        exact .inr (.arg (.head _) (.self hs))
      | arg hm => cases hm
  · split at h
    · cases h; exact .inr hq
    · split at h
      · rename_i segs args ht
        rw [ht]
        rw [pathConversion] at h
        split at h
        · cases h
        · split at h
          · obtain ⟨e, he, rfl⟩ := Option.map_eq_some_iff.1 h
            change UsesName (.ptr true e) q at hq
            cases hq with
            | ptr hq =>
              rw [pinContents.eq_def] at he
              split at he
              · cases he; exact .inr (.arg (.head _) (.ref hq))
              · cases he
          · have up : UsesName (.path ["cxx", "UniquePtr"] [.path segs args]) q →
                (∃ d, knownGet q = some d) ∨ UsesName (.path segs args) q := by
              intro hq
              cases hq with
              | self hn => cases hn; exact .inl known_unique_ptr
              | arg hm hn => cases List.mem_singleton.1 hm; exact .inr hn
            split at h
            · split at h <;> cases h <;> exact .inr hq
            · split at h
              · cases h; exact up hq
              · split at h <;> cases h
                · exact up hq
                · cases hq with
                  | ptr hq => exact .inr hq
      · rename_i mu e ht
        rw [ht]
        split at h
        · cases h; exact .inr hq
        · split at h
          · cases h
            cases hq with
            | ptr hq => exact .inr (.ptr hq)
          · split at h <;> cases h <;> exact .inr hq
      · rename_i mu l e ht
        rw [ht]
        split at h
        · split at h <;> cases h
          cases hq with
          | ptr hq => exact .inr (.ref hq)
        · cases h; exact .inr hq
      · cases h; exact .inr hq

/-- The names in the type of a parameter are accounted for by what the parameter says it depends on. -/
theorem convertFnArg_accounted {env : FnEnv} {s s' : FnState} {ns : List String} {diag : QName} {m : ArgMode} {i : FnArg}
    {p : FnArg × ArgumentAnalysis} (h : convertFnArg env s ns diag m i = .done (s', .ok p)) {q : QName}
    (hq : UsesName p.2.conversion.convertedRustType q) : AccountedFor env.conv.typedefs p.2.deps q := by
  obtain ⟨nm, ty, self, into, hp, h⟩ := convertFnArg_ok h
  obtain ⟨st, a, conv, hc, _, hv, rfl⟩ := convertNamedArg_ok h
  rcases argConversion_uses (kind_describes _ _ _ _ _ _ _ _ hc) hv hq with h | h
  · exact .inl h
  · exact convert_deps_complete _ _ _ _ _ _ _ _ hc _ h

/-- Functions whose parameters are not looked at again. -/
def FnKind.Simple : FnKind → Prop
  | .function | .traitMethod .cast .. | .traitMethod .alloc .. | .traitMethod .dealloc .. => True
  | .method (.constructor _) _ => False
  | .method .. => True
  | _ => False

theorem reanalyzeParams_simple {env : FnEnv} {s s' : FnState} {ns : List String} {diag : QName} {f : FuncToConvert}
    {soph : Sophistication} {kind : FnKind} {ps ps' : List (FnArg × ArgumentAnalysis)} {e : Option Err}
    (h : reanalyzeParams env s ns diag f soph kind ps = .done (s', ps', e)) (hk : kind.Simple) : ps' = ps := by
  rw [reanalyzeParams.eq_def] at h
  dsimp only at h
  split at h
  · exact hk.elim
  · exact hk.elim
  · exact hk.elim
  · exact hk.elim
  · cases h; rfl

theorem foldl_setInsert_mem (l : List QName) : ∀ (acc : List QName) (q : QName),
    q ∈ l.foldl setInsert acc ↔ q ∈ acc ∨ q ∈ l := by
  induction l with
  | nil => simp
  | cons x l ih =>
    intro acc q
    rw [List.foldl_cons, ih, abs_mem_setInsert]
    simp only [List.mem_cons]
    constructor
    · rintro ((h | h) | h) <;> simp [h]
    · rintro (h | h | h) <;> simp [h]

/-- **C56 (partial)**: the dependencies of a function account for every name in the types of its parameters in the
bridge. Constructors, destructors and the place for a result are missing, because the dependencies are collected before
those parameters are made. -/
theorem param_deps_partial {env : FnEnv} {s s' : FnState} {name n : ApiName} {f : FuncToConvert}
    {soph : Sophistication} {pre : Option String} {a : FnAnalysis}
    (h : analyzeForeignFn env s name f soph pre = .done (s', a, n)) (hk : a.kind.Simple) {p : ArgumentAnalysis}
    (hp : p ∈ a.paramDetails) (hr : ¬ p.ForResult) {q : QName} (hq : UsesName p.conversion.convertedRustType q) :
    AccountedFor env.conv.typedefs a.deps q := by
  obtain ⟨t⟩ := analyze_steps h
  have hre := t.hre
  rw [← t.kind_eq] at hre
  have e := reanalyzeParams_simple hre hk
  rw [t.details_eq, e, List.map_append] at hp
  rcases List.mem_append.1 hp with hp | hp
  · obtain ⟨x, hx, rfl⟩ := List.mem_map.1 hp
    obtain ⟨_, _, _, _, hc⟩ := t.hparams.from x hx
    refine (convertFnArg_accounted hc hq).mono fun d hd => ?_
    rw [t.deps_eq, foldl_setInsert_mem]
    exact .inr (List.mem_append_left _ (List.mem_flatMap.2 ⟨x, hx, hd⟩))
  · obtain ⟨x, hx, rfl⟩ := List.mem_map.1 hp
    obtain ⟨_, _, hc⟩ := t.placement x hx
    exact absurd (valueReturn_forResult hc) hr

/-- C56: the dependencies of a function account for every name in the type of its result in the bridge. -/
theorem return_deps {env : FnEnv} {s s' : FnState} {name n : ApiName} {f : FuncToConvert}
    {soph : Sophistication} {pre : Option String} {a : FnAnalysis}
    (h : analyzeForeignFn env s name f soph pre = .done (s', a, n)) {c : TypeConversionPolicy}
    (hc : a.retConversion = some c) {q : QName} (hq : UsesName c.unwrappedType q) :
    AccountedFor env.conv.typedefs a.deps q := by
  obtain ⟨t⟩ := analyze_steps h
  have hdeps : t.ret.deps ⊆ a.deps := by
    intro d hd
    rw [t.deps_eq, foldl_setInsert_mem]
    exact .inr (List.mem_append_right _ hd)
  rw [t.retConversion_eq] at hc
  refine AccountedFor.mono ?_ hdeps
  rcases t.hret with ⟨hr, _⟩ | ⟨e, _, hr, _⟩
  · have hr := convertReturn_ok hr
    generalize f.output = out at hr
    generalize t.ret = ret at hr hc ⊢
    generalize t.s4 = s4 at hr
    cases hr with
    | nothing => cases hc
    | plain h1 hp' hr =>
      obtain ⟨st, hcv, _⟩ := convertBoxed_ok h1
      rw [plainReturn] at hr
      obtain ⟨c', hc', rfl⟩ := Option.map_eq_some_iff.1 hr
      cases hc
      refine convert_deps_complete _ _ _ _ _ _ _ _ hcv _ ?_
      split at hc'
      · rw [TypeConversionPolicy.returnReferenceIntoWrapper.eq_def] at hc'
        split at hc'
        · rename_i he
          cases hc'
          cases hq with
          | ptr hq => rw [he]; exact .ref hq
        · rename_i he
          obtain ⟨x, hx, rfl⟩ := Option.map_eq_some_iff.1 hc'
          rw [pinnedMutRef.eq_def] at hx
          split at hx
          · rename_i hh
            split at hx <;> cases hx
            rw [hh]
            cases hq with
            | ptr hq => exact .arg (.head _) (.ref hq)
          · cases hx
        · cases hc'
      · cases hc'; exact hq
    | value h1 ht hq' hp' hr =>
      obtain ⟨st, hcv, _⟩ := convertBoxed_ok h1
      rcases valueReturn_ok hr with ⟨p, _, _, h2, rfl⟩ | ⟨_, _, rfl⟩
      · cases hc; exact convert_deps_complete _ _ _ _ _ _ _ _ hcv _ hq
      · cases hc; exact convert_deps_complete _ _ _ _ _ _ _ _ hcv _ hq
  · rw [hr] at hc; cases hc

end Verif
