import Verif.RsNamesProps

/-!
# The names of modules in which something is written in Rust (C74)

Where a class has subclasses in Rust, its module has two traits named after it; the outermost module has two types for
each subclass, and functions and imports for whatever of Rust is offered to C++. Here is which names these are, exactly,
and when no name is defined twice although they are there.
-/

set_option autoImplicit false

namespace Verif

/-! ## Specification -/

/-- The names an item gives meaning to at the very top of the generated code. -/
def globalNames (cfg : Config) : FnApi → List Ident
  | .stringConstructor _ => ["ToCppString"]
  | .rustType n _ | .rustSubclassFn n _ _ => [n.name.name]
  | .rustFn n _ =>
    match cfg.externRustFuns.find? (fun f => f.sig.ident = n.name.name) with
    | some f => if f.hasReceiver then [] else f.path.getLast?.toList
    | none => []
  | .subclass n _ => [n.removeOwnership]
  | _ => []

/-- What is put after the name of a class or a subclass. -/
def madeSuffixes : List String := ["_methods", "_supers", "Cpp", "Holder"]

/-- No item of a namespace has a name made up for another. -/
def MadeApart (cfg : Config) (apis : List FnApi) (path : List String) : Prop :=
  ∀ a ∈ apis, ∀ b ∈ apis, a.name.ns = path → b.name.ns = path → ∀ s ∈ madeSuffixes,
    a.name.name ++ s ∈ exposedNames cfg apis a → ¬ NamedOtherwise b → b.name.name ∈ exposedNames cfg apis b →
    b.name.name ≠ a.name.name ++ s

/-- What is at the very top keeps apart from everything else there. -/
structure TopApart (cfg : Config) (apis : List FnApi) : Prop where
  each : ∀ a ∈ apis, ∀ b ∈ apis, a.name ≠ b.name → ∀ x ∈ globalNames cfg a, x ∉ globalNames cfg b
  fixed : ∀ a ∈ apis, ∀ x ∈ globalNames cfg a, x ∉ outermostNames
  items : ∀ a ∈ apis, ∀ x ∈ globalNames cfg a, ∀ b ∈ apis, b.name.ns = [] → x ∉ exposedNames cfg apis b
  kids : ∀ a ∈ apis, ∀ x ∈ globalNames cfg a, ∀ b ∈ apis, ¬ [x] <+: b.name.ns

/-! ## The names at the very top -/

theorem item_globals {hash : Config → Nat} {policy : UnsafePolicy} {cfg : Config} {apis : List FnApi} {a : FnApi}
    {c : ApiCode} (hg : genApi (RsEnv.ofApis hash policy cfg apis) a = some c) :
    c.globals.flatMap GlobalDecl.names = globalNames cfg a := by
  have hcfg : (RsEnv.ofApis hash policy cfg apis).cfg = cfg := rfl
  cases a with
  | rustFn n ds =>
    rw [genApi] at hg
    obtain ⟨f, hf, rfl⟩ := Option.map_eq_some_iff.1 hg
    rw [hcfg] at hf
    rw [globalNames, hf]
    dsimp only
    split
    · rfl
    · simp [GlobalDecl.names]
  | rustType n s =>
    rw [genApi] at hg
    obtain ⟨q, hq, rfl⟩ := Option.map_eq_some_iff.1 hg
    have hl := List.find?_some hq
    have hl : q.getLast? = some n.name.name := of_decide_eq_true hl
    simp [GlobalDecl.names, globalNames, hl]
  | rustSubclassFn n sub d =>
    rw [genApi, genSubclassFn] at hg
    obtain ⟨ps, _, hg⟩ := Option.bind_eq_some_iff.1 hg
    obtain ⟨r, _, rfl⟩ := Option.map_eq_some_iff.1 hg
    rfl
  | subclass n sup =>
    rw [genApi, genSubclass] at hg
    obtain ⟨s, _, rfl⟩ := Option.map_eq_some_iff.1 hg
    rfl
  | stringConstructor n =>
    cases item_code hg with
    | makeString => rfl
    | type hi => cases hi
    | fn _ _ _ _ h => cases h
    | bindgen h => rcases h with ⟨_, _, h⟩ | ⟨_, _, _, _, h⟩ <;> cases h
    | nothing h => rcases h with ⟨_, _, h⟩ | ⟨_, _, h⟩ <;> cases h
    | ctype _ _ h | rustType _ _ _ h | rustFn _ _ _ h | subclassFn _ _ _ _ h | subclass _ _ _ h | externCpp _ _ _ _ h
    | failed _ _ _ h => cases h
  | _ =>
    cases item_code hg with
    | type _ _ hc => cases hc <;> rfl
    | makeString _ h | rustType _ _ _ h | rustFn _ _ _ h | subclassFn _ _ _ _ h | subclass _ _ _ h => cases h
    | fn | bindgen | ctype | externCpp | nothing => rfl
    | failed n err ctx h => cases ctx <;> rfl

/-- **C74**: the names defined at the very top of the generated code, exactly. -/
theorem top_names {hash : Config → Nat} {policy : UnsafePolicy} {cfg : Config} {includes : List String}
    {headerName : Option String} {apis : List FnApi} {f : RsFile}
    (h : generateRsCode hash policy cfg includes headerName apis = some f) :
    f.globals.flatMap GlobalDecl.names = apis.flatMap (globalNames cfg) := by
  obtain ⟨codes, P⟩ := rs_parts h
  rw [P.globals]
  have key : ∀ {l : List FnApi} {r : List ApiCode},
      All2 (fun a c => genApi (RsEnv.ofApis hash policy cfg apis) a = some c) l r →
      (r.flatMap (·.globals)).flatMap GlobalDecl.names = l.flatMap (globalNames cfg) := by
    intro l r h
    induction h with
    | nil => rfl
    | cons hac _ ih => rw [List.flatMap_cons, List.flatMap_append, List.flatMap_cons, ih, item_globals hac]
  exact key P.each

theorem globalNames_nodup (cfg : Config) (a : FnApi) : (globalNames cfg a).Nodup := by
  cases a with
  | rustFn n ds =>
    rw [globalNames]
    split
    · split
      · exact .nil
      · cases (RustFun.path _).getLast? <;> simp
    · exact .nil
  | _ => simp [globalNames]

/-! ## The names in a module -/

/-- Every name an item which keeps its own name gives meaning to is its name, or made from it. -/
theorem exposed_made {cfg : Config} {apis : List FnApi} {a : FnApi} (ho : ¬ NamedOtherwise a) :
    ∀ x ∈ exposedNames cfg apis a, x = a.name.name ∨ ∃ s ∈ madeSuffixes, x = a.name.name ++ s := by
  have ht : ∀ q x, x ∈ traitNames cfg apis q → ∃ s ∈ madeSuffixes, x = q.name ++ s := by
    intro q x hx
    rw [traitNames] at hx
    split at hx
    · rcases List.mem_append.1 hx with hx | hx
      · split at hx
        · cases hx
        · exact ⟨_, .tail _ (.head _), List.mem_singleton.1 hx⟩
      · exact ⟨_, .head _, List.mem_singleton.1 hx⟩
    · cases hx
  have ht' : ∀ (n : ApiName) x, x ∈ traitNames cfg apis n.name ++ [n.name.name] →
      x = n.name.name ∨ ∃ s ∈ madeSuffixes, x = n.name.name ++ s := by
    intro n x hx
    rcases List.mem_append.1 hx with hx | hx
    · exact .inr (ht _ _ hx)
    · exact .inl (List.mem_singleton.1 hx)
  intro x hx
  cases a with
  | function | stringConstructor | ignoredItem => exact absurd trivial ho
  | subclass n sup =>
    rcases List.mem_cons.1 hx with hx | hx
    · exact .inr ⟨_, .tail _ (.tail _ (.head _)), hx⟩
    · exact .inr ⟨_, .tail _ (.tail _ (.tail _ (.head _))), List.mem_singleton.1 hx⟩
  | const | typedef | externCppType => exact .inl (List.mem_singleton.1 hx)
  | enum n _ | concreteType n _ _ | forwardDeclaration n _ | opaqueTypedef n _ => exact ht' n x hx
  | struct n d an =>
    rw [exposedNames] at hx
    split at hx
    · cases hx
    · exact ht' n x hx
  | rustType | rustFn | rustSubclassFn | subclassTraitItem | ctype => cases hx

/-- What is put after names can be told from their ends. -/
theorem suffix_same {p q s t : String} (hs : s ∈ madeSuffixes) (ht : t ∈ madeSuffixes) (h : p ++ s = q ++ t) :
    s = t ∧ p = q := by
  have e : (p ++ s).toList.reverse.take 3 = (q ++ t).toList.reverse.take 3 := by rw [h]
  have k : ∀ (p s : String), s ∈ madeSuffixes → (p ++ s).toList.reverse.take 3 = s.toList.reverse.take 3 := by
    intro p s hs
    rw [String.toList_append, List.reverse_append, List.take_append_of_le_length]
    revert s
    decide
  rw [k p s hs, k q t ht] at e
  have hst : ∀ s ∈ madeSuffixes, ∀ t ∈ madeSuffixes, s.toList.reverse.take 3 = t.toList.reverse.take 3 → s = t := by decide
  have hst : s = t := hst s hs t ht e
  subst hst
  refine ⟨rfl, ?_⟩
  have := congrArg String.toList h
  simp only [String.toList_append] at this
  exact String.toList_inj.1 (List.append_cancel_right this)

theorem append_ne_self {p s : String} (hs : s ≠ "") : p ++ s ≠ p := by
  intro h
  have := congrArg String.length h
  rw [String.length_append] at this
  exact hs (String.length_eq_zero_iff.1 (by omega))

theorem exposed_once (cfg : Config) (apis : List FnApi) (a : FnApi) : (exposedNames cfg apis a).Nodup := by
  have hne : ∀ {p s t : String}, s ∈ madeSuffixes → t ∈ madeSuffixes → s ≠ t → p ++ s ≠ p ++ t :=
    fun hs ht h e => h (suffix_same hs ht e).1
  have ht : ∀ q : QName, (traitNames cfg apis q ++ [q.name]).Nodup := by
    intro q
    have h1 : q.name ++ "_supers" ≠ q.name ++ "_methods" := hne (by decide) (by decide) (by decide)
    have h2 : q.name ++ "_supers" ≠ q.name := append_ne_self (by decide)
    have h3 : q.name ++ "_methods" ≠ q.name := append_ne_self (by decide)
    rw [traitNames]
    split
    · split
      · simp [h3]
      · simp [h1, h2, h3]
    · simp
  cases a with
  | function n f an => rw [exposedNames]; split <;> simp
  | ignoredItem n e c => rcases c with _ | (_ | _ | _) <;> simp [exposedNames]
  | subclass n sup =>
    have h1 : n.cppPeer.name ≠ n.holder := hne (p := n.name.name) (s := "Cpp") (t := "Holder") (by decide) (by decide) (by decide)
    simp [exposedNames, h1]
  | enum n _ | concreteType n _ _ | forwardDeclaration n _ | opaqueTypedef n _ => exact ht n.name
  | struct n d an =>
    rw [exposedNames]
    split
    · exact .nil
    · exact ht n.name
  | _ => simp [exposedNames]

theorem qname_ne {q r : QName} (hns : q.ns = r.ns) (h : q ≠ r) : q.name ≠ r.name := by
  intro e
  cases q
  cases r
  cases hns
  cases e
  exact h rfl

namespace ConvertStages

variable {fuel : Nat} {hash : Config → Nat} {sigOf : RustSig → RustFnSig} {policy : UnsafePolicy} {cfg : Config}
  {force : Bool} {cb : Callbacks} {items : List BindgenItem} {out : FnApiVec}
  (p : ConvertStages fuel hash sigOf policy cfg force cb items out)
include p

/-- The items of one namespace define no name twice. -/
theorem exposed_distinct {path : List String} (hap : ModuleApart cfg out.apis path) (hm : MadeApart cfg out.apis path) :
    ((out.apis.filter fun a => a.name.ns = path).flatMap (exposedNames cfg out.apis)).Nodup := by
  rw [List.nodup_flatMap]
  constructor
  · intro a _
    exact exposed_once _ _ a
  · have hpw : (out.apis.filter fun a => a.name.ns = path).Pairwise fun a b => a.name ≠ b.name := by
      rw [← List.pairwise_map (f := Api.name) (R := (· ≠ ·))]
      exact p.out_inv.1.sublist (List.filter_sublist.map _)
    refine hpw.imp_of_mem fun {a b} ha hb hab => ?_
    obtain ⟨ha, hpa⟩ := List.mem_filter.1 ha
    obtain ⟨hb, hpb⟩ := List.mem_filter.1 hb
    have hpa := of_decide_eq_true hpa
    have hpb := of_decide_eq_true hpb
    intro x hxa hxb
    by_cases hff : ∃ n f an n' f' an', a = .function n f an ∧ b = .function n' f' an'
    · obtain ⟨n, f, an, n', f', an', rfl, rfl⟩ := hff
      rw [exposedNames] at hxa hxb
      split at hxa
      · rename_i h1
        split at hxb
        · rename_i h2
          have hname : an.rustName = an'.rustName := (List.mem_singleton.1 hxa).symm.trans (List.mem_singleton.1 hxb)
          have hne : n.name ≠ n'.name := hab
          obtain ⟨inner, b, b', k, ho, ho', hk, hcl⟩ := p.delivered_names_partial ha hb hne
            (by rw [h1.1, h2.1]; exact .free (hpa.trans hpb.symm)) hname
          rw [h1.1] at ho
          rw [h2.1] at ho'
          cases ho with
          | free hi =>
            cases ho' with
            | free hi' =>
              rcases hcl with e | e
              · exact hap.numbered n f an n' f' an' ha hb hpa hpb b b' k hi hi' hk e
              · exact hap.numbered n' f' an' n f an hb ha hpb hpa b' b k hi' hi hk e
        · cases hxb
      · cases hxa
    · by_cases hoa : NamedOtherwise a
      · exact hap.others a ha b hb hpa hpb hab hoa (fun n f an n' f' an' h => hff ⟨n, f, an, n', f', an', h⟩) x hxa hxb
      · by_cases hob : NamedOtherwise b
        · exact hap.others b hb a ha hpb hpa (Ne.symm hab) hob
            (fun n f an n' f' an' h => hff ⟨n', f', an', n, f, an, h.2, h.1⟩) x hxb hxa
        · have hne : a.name.name ≠ b.name.name := qname_ne (hpa.trans hpb.symm) hab
          rcases exposed_made hoa x hxa with e1 | ⟨s, hs, e1⟩
          · rcases exposed_made hob x hxb with e2 | ⟨t, ht, e2⟩
            · exact hne (e1.symm.trans e2)
            · exact hm b hb a ha hpb hpa t ht (e2 ▸ hxb) hoa (e1 ▸ hxa) (e1.symm.trans e2)
          · rcases exposed_made hob x hxb with e2 | ⟨t, ht, e2⟩
            · exact hm a ha b hb hpa hpb s hs (e1 ▸ hxa) hob (e2 ▸ hxb) (e2.symm.trans e1)
            · exact hne (suffix_same hs ht (e1.symm.trans e2)).2

/-- **C74 (partial)**: no generated module defines a name twice, whatever of Rust is offered to C++, if the names of the
header keep apart as `ModuleApart` says, nothing has a name made up for something else and what is at the very top keeps
apart. What is missing is headers and Rust code of which this is not so: see `reserved_namespace_false`,
`numbered_names_false` and `made_name_false`. -/
theorem rust_names_once_partial {policy' : UnsafePolicy} {includes : List String} {headerName : Option String} {file : RsFile}
    (hfile : generateRsCode hash policy' cfg includes headerName out.apis = some file) {path : List String}
    (hap : ModuleApart cfg out.apis path) (hm : MadeApart cfg out.apis path) (ht : path = [] → TopApart cfg out.apis)
    {l : List Ident} (hl : file.namesIn path = some l) : l.Nodup := by
  obtain ⟨kids, hkn, hkids, rfl⟩ := (p.module_names hfile path).2 l hl
  have hitems := p.exposed_distinct hap hm
  rw [top_names hfile]
  rw [List.nodup_append, List.nodup_append]
  refine ⟨⟨?_, hitems, fun x hx y hy e => ?_⟩, hkn, fun x hx y hy e => ?_⟩
  · split
    · rename_i hp
      have ht := ht hp
      rw [List.nodup_append]
      refine ⟨?_, by decide, fun x hx y hy e => ?_⟩
      · rw [List.nodup_flatMap]
        refine ⟨fun a _ => globalNames_nodup cfg a, ?_⟩
        have hpw : out.apis.Pairwise fun a b => a.name ≠ b.name := by
          rw [← List.pairwise_map (f := Api.name) (R := (· ≠ ·))]
          exact p.out_inv.1
        refine hpw.imp_of_mem fun {a b} ha hb hab x hxa hxb => ht.each a ha b hb hab x hxa hxb
      · subst e
        obtain ⟨a, ha, hxa⟩ := List.mem_flatMap.1 hx
        exact ht.fixed a ha x hxa hy
    · decide
  · subst e
    obtain ⟨a, ha, hxa⟩ := List.mem_flatMap.1 hy
    obtain ⟨ha, hpa⟩ := List.mem_filter.1 ha
    have hpa := of_decide_eq_true hpa
    split at hx
    · rename_i hp
      rcases List.mem_append.1 hx with hx | hx
      · obtain ⟨b, hb, hxb⟩ := List.mem_flatMap.1 hx
        exact (ht hp).items b hb x hxb a ha (hpa.trans hp) hxa
      · exact (hap.fixed x (by rw [fixedNames, if_pos hp]; exact List.mem_cons_of_mem _ hx)).1 a ha hpa hxa
    · rename_i hp
      exact (hap.fixed x (by rw [fixedNames, if_neg hp]; exact hx)).1 a ha hpa hxa
  · subst e
    obtain ⟨b, hb, hpf⟩ := (hkids x).1 hy
    rcases List.mem_append.1 hx with hx | hx
    · split at hx
      · rename_i hp
        rcases List.mem_append.1 hx with hx | hx
        · obtain ⟨a, ha, hxa⟩ := List.mem_flatMap.1 hx
          refine (ht hp).kids a ha x hxa b hb ?_
          rw [hp] at hpf
          exact hpf
        · exact (hap.fixed x (by rw [fixedNames, if_pos hp]; exact List.mem_cons_of_mem _ hx)).2 b hb hpf
      · rename_i hp
        exact (hap.fixed x (by rw [fixedNames, if_neg hp]; exact hx)).2 b hb hpf
    · obtain ⟨a, ha, hxa⟩ := List.mem_flatMap.1 hx
      obtain ⟨ha, hpa⟩ := List.mem_filter.1 ha
      exact hap.kids a ha (of_decide_eq_true hpa) x hxa b hb hpf

end ConvertStages

end Verif
