import Verif.ExternFunProps
import Verif.PodPassMore

/-!
# C50, C11, C70: why a whole run fails

A run ends with an error for five reasons and no others: bindgen wrote nothing, a function of Rust offered to C++ has a
signature which is not accepted, something asked for by name is not there, a type asked for by value cannot be passed so,
or C++ code cannot be written.
-/

set_option autoImplicit false

namespace Verif

theorem andThen_error {ε α β : Type} {r : PassRun (Except ε α)} {f : α → PassRun (Except ε β)} {e : ε} :
    r.andThen f = .done (.error e) ↔ r = .done (.error e) ∨ ∃ a, r = .done (.ok a) ∧ f a = .done (.error e) := by
  unfold PassRun.andThen
  rw [PassRun.bind_done]
  constructor
  · rintro ⟨x, rfl, h⟩
    cases x with
    | error e' => cases h; exact .inl rfl
    | ok a => exact .inr ⟨a, rfl, h⟩
  · rintro (rfl | ⟨a, rfl, h⟩)
    · exact ⟨_, rfl, rfl⟩
    · exact ⟨_, rfl, h⟩

/-- The functions offered to C++ are refused for the first with a signature which is. -/
theorem rustFuns_error_iff (sigOf : RustSig → RustFnSig) (l : List RustFun) (e : RustErr) :
    rustFunApis sigOf l = some (.error e) ↔ ∃ pre f post, l = pre ++ f :: post ∧
      (∀ g ∈ pre, ∃ deps, assembleExternFunDeps (sigOf g.sig) = some (.ok deps)) ∧
      assembleExternFunDeps (sigOf f.sig) = some (.error e) := by
  induction l with
  | nil => simp [rustFunApis]
  | cons f l ih =>
    unfold rustFunApis
    constructor
    · intro h
      split at h
      · cases h
      · rename_i e' he
        cases h
        exact ⟨[], f, l, rfl, by simp, he⟩
      · rename_i deps hd
        split at h
        · cases h
        · rename_i e' he
          cases h
          obtain ⟨pre, g, post, rfl, hp, hg⟩ := ih.1 he
          refine ⟨f :: pre, g, post, rfl, ?_, hg⟩
          intro x hx
          rcases List.mem_cons.1 hx with rfl | hx
          · exact ⟨deps, hd⟩
          · exact hp x hx
        · cases h
    · rintro ⟨pre, g, post, he, hp, hg⟩
      cases pre with
      | nil => cases he; rw [hg]
      | cons x pre =>
        cases he
        obtain ⟨deps, hd⟩ := hp f List.mem_cons_self
        rw [hd]
        dsimp only
        rw [ih.2 ⟨pre, g, post, rfl, fun x hx => hp x (.tail _ hx), hg⟩]

/-- A signature offered is refused, and none before it is. -/
def OfferRefused (sigOf : RustSig → RustFnSig) (cfg : Config) (e : RustErr) : Prop :=
  ∃ pre f post, cfg.externRustFuns = pre ++ f :: post ∧
    (∀ g ∈ pre, ∀ i ∈ (sigOf g.sig).parts, ∃ n, i.Accepted n) ∧
    ∃ pre' i post', (sigOf f.sig).parts = pre' ++ i :: post' ∧ (∀ j ∈ pre', ∃ n, j.Accepted n) ∧ i.Rejected e

theorem configApis_error_iff {hash : Config → Nat} {sigOf : RustSig → RustFnSig} {cfg : Config} {e : RustErr} :
    configApis hash sigOf cfg = some (.error e) ↔ OfferRefused sigOf cfg e := by
  have h1 : configApis hash sigOf cfg = some (.error e) ↔ rustFunApis sigOf cfg.externRustFuns = some (.error e) := by
    unfold configApis
    split
    · rename_i h; rw [h]
    · rename_i h; rw [h]
    · rename_i h; rw [h]; simp
  rw [h1, rustFuns_error_iff]
  unfold OfferRefused
  refine exists_congr fun pre => exists_congr fun f => exists_congr fun post => and_congr_right fun _ => and_congr ?_ ?_
  · exact forall_congr' fun g => forall_congr' fun _ => (signature_accepted_iff _).1
  · exact signature_refused_iff ..

/-- **C50, C70**: parsing fails for a Rust reason exactly if a signature offered is refused, if it finds the root module at
all. -/
theorem offer_refused_iff (hash : Config → Nat) (sigOf : RustSig → RustFnSig) (cfg : Config) (cb : Callbacks)
    (items : List BindgenItem) (e : RustErr) :
    parseBindgenItems hash sigOf cfg cb items = some (.error (.rust e)) ↔
      (∃ root, RootIs items root) ∧ OfferRefused sigOf cfg e := by
  rw [← configApis_error_iff (hash := hash)]
  constructor
  · intro h
    have h' := h
    unfold parseBindgenItems at h'
    split at h'
    · cases h'
    · rename_i root hroot
      refine ⟨⟨_, (findItemsInRoot_iff items (root.getD [])).1 (by rw [hroot]; rfl)⟩, ?_⟩
      rcases parseItems_eq h with ⟨e', he, hr⟩ | ⟨found, hf, hr⟩
      · cases hr; exact he
      · split at hr <;> cases hr
  · rintro ⟨⟨root, hroot⟩, he⟩
    obtain ⟨r, hr, rfl⟩ := Option.map_eq_some_iff.1 ((findItemsInRoot_iff ..).2 hroot)
    unfold parseBindgenItems
    rw [hr, he]

/-- Something is asked for by name and not found, and nothing before it in the user's order is. -/
def DirectiveRefused (hash : Config → Nat) (sigOf : RustSig → RustFnSig) (cfg : Config) (cb : Callbacks)
    (items : List BindgenItem) (d : String) : Prop :=
  ∃ found, FoundBy hash sigOf cfg cb items found ∧ ∃ pre post, cfg.mustGenerateList = pre ++ d :: post ∧
    (∀ x ∈ pre, ∃ a ∈ found, a.name.toCppName = x) ∧ ∀ a ∈ found, a.name.toCppName ≠ d

/-- **C11, C50, C70**: why the conversion of what bindgen wrote ends with an error. -/
theorem convert_error_iff (fuel : Nat) (hash : Config → Nat) (sigOf : RustSig → RustFnSig) (policy : UnsafePolicy)
    (cfg : Config) (force : Bool) (cb : Callbacks) (content : Option (List BindgenItem)) (e : ConvertErr) :
    convertApisFrom fuel hash sigOf policy cfg force cb content = .done (.error e) ↔
      (content = none ∧ e = .noContent) ∨
      ∃ items, content = some items ∧
        ((∃ r, e = .rust r ∧ (∃ root, RootIs items root) ∧ OfferRefused sigOf cfg r) ∨
        (∃ d, e = .cpp (.didNotGenerateAnything d) ∧ DirectiveRefused hash sigOf cfg cb items d) ∨
        ∃ found typedefs m, parseBindgenItems hash sigOf cfg cb items = some (.ok found) ∧
          convertTypedefTargets fuel cfg cb.attrs found = .done typedefs ∧
          byValueFromApis typedefs.apis cfg = .err m ∧ e = .cpp (.unsafePodType m)) := by
  cases content with
  | none =>
    constructor
    · intro h; cases h; exact .inl ⟨rfl, rfl⟩
    · rintro (⟨-, rfl⟩ | ⟨_, h, -⟩)
      · rfl
      · cases h
  | some items =>
    have parse : PassRun.ofOption (parseBindgenItems hash sigOf cfg cb items) = .done (.error e) ↔
        (∃ r, e = .rust r ∧ (∃ root, RootIs items root) ∧ OfferRefused sigOf cfg r) ∨
        ∃ d, e = .cpp (.didNotGenerateAnything d) ∧ DirectiveRefused hash sigOf cfg cb items d := by
      rw [ofOption_done]
      constructor
      · intro h
        cases e with
        | noContent =>
          rcases parse_error_kinds _ _ _ _ _ _ h with ⟨r, e, -⟩ | ⟨d, -, e⟩ <;> cases e
        | rust r => exact .inl ⟨r, rfl, (offer_refused_iff ..).1 h⟩
        | cpp x =>
          obtain ⟨found, hf, pre, d, post, h1, h2, h3, rfl⟩ := (directive_refused_iff ..).1 h
          exact .inr ⟨d, rfl, found, hf, pre, post, h1, h2, h3⟩
      · rintro (⟨r, rfl, h⟩ | ⟨d, rfl, found, hf, pre, post, h1, h2, h3⟩)
        · exact (offer_refused_iff ..).2 h
        · exact (directive_refused_iff ..).2 ⟨found, hf, pre, d, post, h1, h2, h3, rfl⟩
    unfold convertApisFrom
    dsimp only
    rw [andThen_error, parse]
    constructor
    · rintro (h | ⟨found, hp, h⟩)
      · refine .inr ⟨items, rfl, ?_⟩
        rcases h with h | h
        · exact .inl h
        · exact .inr (.inl h)
      · refine .inr ⟨items, rfl, .inr (.inr ?_)⟩
        rw [PassRun.bind_done] at h
        obtain ⟨typedefs, ht, h⟩ := h
        rw [andThen_error] at h
        rcases h with h | ⟨pods, -, h⟩
        · obtain ⟨r, hr, h⟩ := PassRun.bind_done.1 h
          split at h
          · cases h
            exact ⟨found, typedefs, _, ofOption_done.1 hp, ht, (pod_pass_fails ..).1 hr, rfl⟩
          · cases h
        · obtain ⟨a, -, h⟩ := PassRun.bind_done.1 h
          obtain ⟨b, -, h⟩ := PassRun.bind_done.1 h
          cases h
    · rintro (⟨h, -⟩ | ⟨items', he, h⟩)
      · cases h
      · cases he
        rcases h with h | h | ⟨found, typedefs, m, h1, h2, h3, rfl⟩
        · exact .inl (.inl h)
        · exact .inl (.inr h)
        · refine .inr ⟨found, ofOption_done.2 h1, ?_⟩
          rw [PassRun.bind_done]
          refine ⟨typedefs, h2, ?_⟩
          rw [andThen_error]
          left
          rw [PassRun.bind_done]
          exact ⟨.error m, (pod_pass_fails ..).2 h3, rfl⟩

/-- **C11, C50, C70**: a whole run ends with an error exactly if converting what bindgen wrote does, or if the C++ code for
what is delivered cannot be written. -/
theorem convertAll_error_iff (fuel : Nat) (hash : Config → Nat) (sigOf : RustSig → RustFnSig) (policy : UnsafePolicy)
    (cfg : Config) (force : Bool) (cb : Callbacks) (content : Option (List BindgenItem)) (o : CppOptions)
    (cxxgenHeader inclusions : String) (includes : List String) (e : ConvertErr) :
    convertAll fuel hash sigOf policy cfg force cb content o cxxgenHeader inclusions includes = .done (.error e) ↔
      convertApisFrom fuel hash sigOf policy cfg force cb content = .done (.error e) ∨
      ∃ out x, convertApisFrom fuel hash sigOf policy cfg force cb content = .done (.ok out) ∧
        generateCppCode o hash cfg cxxgenHeader inclusions out.apis = .err x ∧ e = .cpp x := by
  unfold convertAll convertToCpp
  rw [andThen_error, andThen_error]
  constructor
  · rintro ((h | ⟨out, ho, h⟩) | ⟨⟨out, r⟩, -, h⟩)
    · exact .inl h
    · split at h
      · cases h
      · rename_i x hx
        cases h
        exact .inr ⟨out, x, ho, hx, rfl⟩
      · cases h
    · split at h <;> cases h
  · rintro (h | ⟨out, x, ho, hx, rfl⟩)
    · exact .inl (.inl h)
    · exact .inl (.inr ⟨out, ho, by rw [hx]⟩)

end Verif
