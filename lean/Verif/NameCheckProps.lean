import Verif.NameCheck
import Verif.NamesProps
import Verif.ApiVecProps
import Verif.KnownTypesProps
import Verif.Util

/-!
# C06, C07 and C46: the final name check and C integer types
-/

set_option autoImplicit false

namespace Verif

/-! ## Specification -/

/-- The identifiers of an item which end up in the bridge: its Rust name and, where the bridge states it,
its C++ name; for a subclass also the superclass. Items autocxx itself names are not listed. -/
def emittedIdents : FnApi → List String
  | .typedef n .. | .forwardDeclaration n _ | .opaqueTypedef n _ | .const n _ | .enum n _
  | .struct n .. => n.name.ns ++ [n.name.name] ++
      (n.cppName.map fun c => (QName.ofCppName c).ns ++ [(QName.ofCppName c).name]).getD []
  | .subclass n sup => n.name.ns ++ [n.name.name] ++ (sup.ns ++ [sup.name])
  | .function n _ _ => n.name.ns ++ [n.name.name]
  | _ => []

/-- All identifiers of the item are acceptable to cxx. -/
def NamesOk (a : FnApi) : Prop := ∀ s ∈ emittedIdents a, CxxAcceptable s

/-- The items of `l`, with acceptable names, which want the bridge name `n`. -/
def Wants (l : List FnApi) (n : Ident) (a : FnApi) : Prop :=
  a ∈ l ∧ NamesOk a ∧ FnApi.cxxbridgeName a = some n

/-! ## Helper lemmas -/

theorem validateAllSegs_ok_iff (l : List String) :
    validateAllSegs l = .ok ↔ ∀ s ∈ l, CxxAcceptable s := by
  induction l with
  | nil => simp [validateAllSegs]
  | cons s r ih =>
    rw [List.forall_mem_cons, ← ih, ← validate_ok_iff, validateAllSegs]
    cases h : validateIdentOkForCxx s <;> simp

theorem validateAllSegs_bad (l : List String) (e : InvalidIdentError) (h : validateAllSegs l = .bad e) :
    ∃ s ∈ l, validateIdentOkForCxx s = .bad e := by
  induction l with
  | nil => simp [validateAllSegs] at h
  | cons s r ih =>
    rw [validateAllSegs] at h
    cases hs : validateIdentOkForCxx s with
    | ok => rw [hs] at h; obtain ⟨x, hx, e⟩ := ih h; exact ⟨x, by simp [hx], e⟩
    | bad e' => rw [hs] at h; exact ⟨s, by simp, by rw [hs]; exact h⟩
    | panic => rw [hs] at h; cases h

theorem validateAllSegs_panic (l : List String) (h : validateAllSegs l = .panic) :
    ∃ s ∈ l, isIdentText s = false := by
  induction l with
  | nil => simp [validateAllSegs] at h
  | cons s r ih =>
    rw [validateAllSegs] at h
    cases hs : validateIdentOkForCxx s with
    | ok => rw [hs] at h; obtain ⟨x, hx, e⟩ := ih h; exact ⟨x, by simp [hx], e⟩
    | bad e' => rw [hs] at h; cases h
    | panic => exact ⟨s, by simp, (validate_panic_iff s).1 hs⟩

theorem andThen_ok_iff (a b : Checked) : a.andThen b = .ok ↔ a = .ok ∧ b = .ok := by
  cases a <;> simp [Checked.andThen]

theorem andThen_validate (l m : List String) :
    (validateAllSegs l).andThen (validateAllSegs m) = validateAllSegs (l ++ m) := by
  induction l with
  | nil => simp [validateAllSegs, Checked.andThen]
  | cons s r ih =>
    rw [List.cons_append, validateAllSegs, validateAllSegs]
    cases h : validateIdentOkForCxx s <;> simp [Checked.andThen]
    simpa [Checked.andThen] using ih

theorem checkItemName_eq (a : FnApi) : checkItemName a = validateAllSegs (emittedIdents a) := by
  have key : ∀ n : ApiName, ((validateAllSegs n.name.segs).andThen <|
      match n.cppName with
      | some c => validateAllSegs (QName.ofCppName c).segs
      | none => .ok) = validateAllSegs (n.name.ns ++ [n.name.name] ++
        (n.cppName.map fun c => (QName.ofCppName c).ns ++ [(QName.ofCppName c).name]).getD []) := by
    intro n
    rw [← andThen_validate]
    cases n.cppName <;> rfl
  cases a
  case subclass n sup => exact andThen_validate _ _
  all_goals first | exact key _ | rfl

theorem checkItemName_ok_iff (a : FnApi) : checkItemName a = .ok ↔ NamesOk a := by
  rw [checkItemName_eq]; exact validateAllSegs_ok_iff _

theorem checkNamesFirst_one : OneForOne checkNamesFirst := by
  intro a l h
  unfold checkNamesFirst at h
  split at h
  · cases h
  · cases h; exact ⟨a, rfl, rfl⟩

theorem checkNamesSecond_one (m : AMap Ident (List String)) : OneForOne (checkNamesSecond m) := by
  intro a l h
  unfold checkNamesSecond at h
  split at h
  · simp only at h
    split at h
    · cases h
    · cases h; exact ⟨a, rfl, rfl⟩
  · cases h; exact ⟨a, rfl, rfl⟩

/-- What the first pass makes of an item which does not panic. -/
theorem outcome_first (a : FnApi) (hp : checkItemName a ≠ .panic) :
    (NamesOk a ∧ outcome checkNamesFirst a = a) ∨
    (¬ NamesOk a ∧ ∃ e, checkItemName a = .bad e ∧
      outcome checkNamesFirst a = .ignoredItem a.nameInfo (.invalidIdent e)
        (some (ErrorContext.newForItem a.name.name))) := by
  rw [← checkItemName_ok_iff]
  cases h : checkItemName a with
  | ok => left; simp [outcome, checkNamesFirst, h]
  | bad e => right; simp [outcome, checkNamesFirst, h]
  | panic => exact absurd h hp

theorem namesFound_get (l : List FnApi) (n : Ident) :
    ((namesFound l).get? n).getD [] =
      (l.filter fun a => FnApi.cxxbridgeName a = some n).map fun a => a.name.display := by
  have key : ∀ (m : AMap Ident (List String)), ((l.foldl noteBridgeName m).get? n).getD [] =
      (m.get? n).getD [] ++
        (l.filter fun a => FnApi.cxxbridgeName a = some n).map fun a => a.name.display := by
    induction l with
    | nil => simp
    | cons a r ih =>
      intro m
      rw [List.foldl_cons, ih, List.filter_cons]
      unfold noteBridgeName
      cases hb : FnApi.cxxbridgeName a with
      | none => simp
      | some k =>
        simp only [AMap.get?_insert]
        by_cases hk : k = n
        · subst hk; simp
        · simp [hk]
  simpa [namesFound] using key []

theorem one_of_length {α β : Type} (f : α → β) (l : List α) (hn : (l.map f).Nodup)
    (p : α → Bool) (a : α) (ha : a ∈ l) (hp : p a = true) :
    (l.filter p).length ≤ 1 ↔ ∀ b ∈ l, p b = true → b = a := by
  have hmem : a ∈ l.filter p := by simp [ha, hp]
  have hnd : ((l.filter p).map f).Nodup := (List.Sublist.map _ List.filter_sublist).nodup hn
  constructor
  · intro h b hb hpb
    have hb' : b ∈ l.filter p := by simp [hb, hpb]
    cases hl : l.filter p with
    | nil => rw [hl] at hmem; cases hmem
    | cons x r =>
      rw [hl] at h hmem hb'
      have : r = [] := List.length_eq_zero_iff.1 (by simp only [List.length_cons] at h; omega)
      subst this
      simp at hmem hb'
      rw [hmem, hb']
  · intro h
    cases hl : l.filter p with
    | nil => simp
    | cons x r =>
      cases r with
      | nil => simp
      | cons y r =>
        exfalso
        have hx : x ∈ l.filter p := by rw [hl]; simp
        have hy : y ∈ l.filter p := by rw [hl]; simp
        have hx' := List.mem_filter.1 hx
        have hy' := List.mem_filter.1 hy
        have e1 := h x hx'.1 hx'.2
        have e2 := h y hy'.1 hy'.2
        rw [hl, e1, e2] at hnd
        simp at hnd

theorem ignored_bridge (n : ApiName) (e : Err) (c : Option ErrorContext) :
    FnApi.cxxbridgeName (.ignoredItem n e c) = none := rfl

/-! ## C06 and C07 -/

open Classical in
/-- Whether the item has acceptable names and wants the bridge name `n`. -/
noncomputable def contends (n : Ident) (a : FnApi) : Bool :=
  decide (NamesOk a ∧ FnApi.cxxbridgeName a = some n)

theorem contends_iff (n : Ident) (a : FnApi) :
    contends n a = true ↔ NamesOk a ∧ FnApi.cxxbridgeName a = some n := by simp [contends]

/-- The names, as shown to the user, of all items which want the bridge name `n`, in order. -/
noncomputable def contenders (l : List FnApi) (n : Ident) : List String :=
  (l.filter (contends n)).map fun a => a.name.display

/-- What may become of an item in the name check. -/
inductive NameFate (l : List FnApi) (a : FnApi) : FnApi → Prop
  /-- Its identifiers are fine, and nothing else wants its bridge name. -/
  | kept (hn : NamesOk a)
      (hu : ∀ n, FnApi.cxxbridgeName a = some n → ∀ c, Wants l n c → c = a) : NameFate l a a
  /-- One of its identifiers is not acceptable. -/
  | badIdent (s : String) (e : InvalidIdentError) (hs : s ∈ emittedIdents a)
      (he : validateIdentOkForCxx s = .bad e) :
      NameFate l a (.ignoredItem a.nameInfo (.invalidIdent e)
        (some (ErrorContext.newForItem a.name.name)))
  /-- Another item wants its bridge name; the error lists all of them. -/
  | collides (n : Ident) (c : FnApi) (hn : NamesOk a) (hb : FnApi.cxxbridgeName a = some n)
      (hw : Wants l n c) (hc : c ≠ a) :
      NameFate l a (.ignoredItem a.nameInfo (.duplicateCxxBridgeName (contenders l n))
        (some (ErrorContext.newForItem a.name.name)))

theorem filter_first (l : List FnApi) (hp : ∀ a ∈ l, checkItemName a ≠ .panic) (n : Ident) :
    ((l.map (outcome checkNamesFirst)).filter fun a => FnApi.cxxbridgeName a = some n) =
      l.filter (contends n) := by
  induction l with
  | nil => rfl
  | cons a r ih =>
    have ih := ih (fun b hb => hp b (by simp [hb]))
    rw [List.map_cons, List.filter_cons, List.filter_cons]
    rcases outcome_first a (hp a (by simp)) with ⟨h1, h2⟩ | ⟨h1, e, -, h2⟩
    · rw [h2]
      by_cases hb : FnApi.cxxbridgeName a = some n
      · rw [if_pos (by simp [hb]), if_pos ((contends_iff n a).2 ⟨h1, hb⟩), ih]
      · rw [if_neg (by simp [hb]), if_neg (by simp [contends_iff, hb]), ih]
    · rw [h2, if_neg (by simp [ignored_bridge]), if_neg (by simp [contends_iff, h1]), ih]

/-- **C06, C07 (complete account)**: unless it panics, the name check gives exactly one result per
item, in order: the item itself if all its identifiers are acceptable and no other acceptable item
wants its bridge name, otherwise a marker with the reason. All parties to a collision are replaced. -/
theorem check_names_fates (apis out : FnVec) (hi : apis.Inv) (h : checkNames apis = some out) :
    All2 (NameFate apis.apis) apis.apis out.apis := by
  unfold checkNames at h
  split at h
  · cases h
  · rename_i hp
    have hp : ∀ a ∈ apis.apis, checkItemName a ≠ .panic := by simpa using hp
    simp only [Option.some.injEq] at h
    subst h
    have hinter : (convertItemApis checkNamesFirst apis {}).Inv :=
      ApiVec.extend_inv ApiVec.inv_empty _
    rw [convert_item_apis_one_for_one _ (checkNamesSecond_one _) _ hinter,
      convert_item_apis_one_for_one _ checkNamesFirst_one _ hi]
    rw [List.map_map]
    have gen : ∀ l' : List FnApi, (∀ a ∈ l', a ∈ apis.apis) →
        All2 (NameFate apis.apis) l' (l'.map (outcome (checkNamesSecond (namesFound
          (apis.apis.map (outcome checkNamesFirst)))) ∘ outcome checkNamesFirst)) := by
      intro l' hl'
      induction l' with
      | nil => exact .nil
      | cons a r ih =>
        refine .cons ?_ (ih fun b hb => hl' b (by simp [hb]))
        have ha := hl' a (by simp)
        simp only [Function.comp]
        rcases outcome_first a (hp a ha) with ⟨h1, h2⟩ | ⟨h1, e, he, h2⟩
        · rw [h2]
          cases hb : FnApi.cxxbridgeName a with
          | none =>
            have : outcome (checkNamesSecond (namesFound
                (apis.apis.map (outcome checkNamesFirst)))) a = a := by
              simp [outcome, checkNamesSecond, hb]
            rw [this]
            exact .kept h1 (by intro n hn; rw [hb] at hn; cases hn)
          | some n =>
            have hg := namesFound_get (apis.apis.map (outcome checkNamesFirst)) n
            rw [filter_first _ hp] at hg
            have hlen := one_of_length (·.name) apis.apis hi.1
              (contends n) a ha ((contends_iff n a).2 ⟨h1, hb⟩)
            by_cases hc : (contenders apis.apis n).length > 1
            · have : outcome (checkNamesSecond (namesFound
                  (apis.apis.map (outcome checkNamesFirst)))) a =
                  .ignoredItem a.nameInfo (.duplicateCxxBridgeName (contenders apis.apis n))
                    (some (ErrorContext.newForItem a.name.name)) := by
                simp only [outcome, checkNamesSecond, hb, hg]
                rw [if_pos (by simpa [contenders] using hc)]
                rfl
              rw [this]
              have hex : ∃ c, Wants apis.apis n c ∧ c ≠ a := by
                refine Classical.byContradiction fun hno => ?_
                have : ∀ b ∈ apis.apis, contends n b = true →
                    b = a := by
                  intro b hb' hw
                  refine Classical.byContradiction fun hne => hno ⟨b, ⟨hb', ?_⟩, hne⟩
                  exact (contends_iff n b).1 hw
                have := hlen.2 this
                simp only [contenders, List.length_map] at hc
                omega
              obtain ⟨c, hw, hne⟩ := hex
              exact .collides n c h1 hb hw hne
            · have : outcome (checkNamesSecond (namesFound
                  (apis.apis.map (outcome checkNamesFirst)))) a = a := by
                simp only [outcome, checkNamesSecond, hb, hg]
                rw [if_neg (by simpa [contenders] using hc)]
              rw [this]
              refine .kept h1 ?_
              intro m hm c hw
              rw [hb] at hm; cases hm
              simp only [contenders, List.length_map] at hc
              exact hlen.1 (by omega) c hw.1 ((contends_iff n c).2 hw.2)
        · rw [h2]
          rw [checkItemName_eq] at he
          obtain ⟨s, hs, hse⟩ := validateAllSegs_bad _ _ he
          have : outcome (checkNamesSecond (namesFound
              (apis.apis.map (outcome checkNamesFirst))))
              (.ignoredItem a.nameInfo (.invalidIdent e)
                (some (ErrorContext.newForItem a.name.name))) =
              (.ignoredItem a.nameInfo (.invalidIdent e)
                (some (ErrorContext.newForItem a.name.name))) := by
            simp [outcome, checkNamesSecond, ignored_bridge]
          rw [this]
          exact .badIdent s e hs hse
    exact gen _ fun _ h => h

/-- The name check panics only if some emitted identifier is no identifier at all. -/
theorem check_names_panic (apis : FnVec) (h : checkNames apis = none) :
    ∃ a ∈ apis.apis, ∃ s ∈ emittedIdents a, isIdentText s = false := by
  unfold checkNames at h
  split at h
  · rename_i hp
    simp only [List.any_eq_true, decide_eq_true_eq] at hp
    obtain ⟨a, ha, hc⟩ := hp
    rw [checkItemName_eq] at hc
    exact ⟨a, ha, validateAllSegs_panic _ hc⟩
  · cases h

theorem name_fate_name {l : List FnApi} {a b : FnApi} (h : NameFate l a b) : b.name = a.name := by
  cases h <;> rfl

/-- **C06**: after the name check no two items have the same bridge name. -/
theorem check_names_unique (apis out : FnVec) (hi : apis.Inv) (h : checkNames apis = some out) :
    (out.apis.filterMap FnApi.cxxbridgeName).Nodup := by
  have hf := check_names_fates apis out hi h
  have hnd : (out.apis.map (·.name)).Nodup := by
    have : apis.apis.map (·.name) = out.apis.map (·.name) :=
      hf.map_eq fun a b hab => (name_fate_name hab).symm
    rw [← this]; exact hi.1
  have huniq : ∀ a ∈ out.apis, ∀ b ∈ out.apis, ∀ n, FnApi.cxxbridgeName a = some n →
      FnApi.cxxbridgeName b = some n → a = b := by
    intro a ha b hb n hna hnb
    obtain ⟨a', ha', fa⟩ := hf.right ha
    obtain ⟨b', hb', fb⟩ := hf.right hb
    cases fa with
    | kept h1 h2 =>
      cases fb with
      | kept g1 g2 => exact (h2 n hna b ⟨hb', g1, hnb⟩).symm
      | badIdent => cases hnb
      | collides => cases hnb
    | badIdent => cases hna
    | collides => cases hna
  clear hf h
  revert huniq
  generalize out.apis = l at hnd
  intro huniq
  induction l with
  | nil => simp
  | cons a r ih =>
    have ih := ih (by simpa using (List.nodup_cons.1 (by simpa using hnd)).2)
      (fun x hx y hy => huniq x (by simp [hx]) y (by simp [hy]))
    cases hb : FnApi.cxxbridgeName a with
    | none => simpa [List.filterMap_cons, hb] using ih
    | some n =>
      rw [List.filterMap_cons, hb]
      refine List.nodup_cons.2 ⟨?_, ih⟩
      intro hm
      obtain ⟨c, hc, hcn⟩ := List.mem_filterMap.1 hm
      have := huniq a (by simp) c (by simp [hc]) n hb hcn
      subst this
      simp only [List.map_cons, List.nodup_cons] at hnd
      exact hnd.1 (List.mem_map.2 ⟨a, hc, rfl⟩)

/-- **C07**: every item which survives the name check has only acceptable identifiers; and an item with
acceptable identifiers is rejected only because of a collision. -/
theorem check_names_idents (apis out : FnVec) (hi : apis.Inv) (h : checkNames apis = some out) :
    (∀ b ∈ out.apis, b.isIgnored = false → ∀ s ∈ emittedIdents b, CxxAcceptable s) ∧
    (∀ a ∈ apis.apis, (∀ s ∈ emittedIdents a, CxxAcceptable s) →
      (∀ n, FnApi.cxxbridgeName a = some n → ∀ c ∈ apis.apis, FnApi.cxxbridgeName c = some n → c = a) →
      a ∈ out.apis) := by
  have hf := check_names_fates apis out hi h
  constructor
  · intro b hb hnb
    obtain ⟨a, ha, f⟩ := hf.right hb
    cases f with
    | kept h1 _ => exact h1
    | badIdent => cases hnb
    | collides => cases hnb
  · intro a ha hok hno
    obtain ⟨b, hb, f⟩ := hf.left ha
    cases f with
    | kept => exact hb
    | badIdent s e hs he =>
      have := (validate_ok_iff s).2 (hok s hs)
      rw [he] at this; cases this
    | collides n c _ hbn hw hc => exact absurd (hno n hbn c hw.1 hw.2.2) hc

/-- No name is lost or invented by the name check. -/
theorem check_names_names (apis out : FnVec) (hi : apis.Inv) (h : checkNames apis = some out) :
    out.nameList = apis.nameList :=
  ((check_names_fates apis out hi h).map_eq fun _ _ hab => (name_fate_name hab).symm).symm

/-- A concrete run: two functions want `f`, one struct has a double underscore, one enum is fine. -/
def checkNamesSample : FnVec := ApiVec.fromIter
  [.function ⟨⟨["a"], "f"⟩, none⟩ {} { cxxbridgeName := "f" },
   .function ⟨⟨["b"], "f"⟩, none⟩ {} { cxxbridgeName := "f" },
   .struct ⟨⟨[], "X__y"⟩, none⟩ {} {},
   .enum ⟨⟨[], "E"⟩, some "Outer::E"⟩ ""]

example : checkNamesSample.Inv ∧
    (checkNames checkNamesSample).map (fun v => v.apis.map (·.isIgnored)) =
      some [true, true, true, false] :=
  ⟨ApiVec.extend_inv ApiVec.inv_empty _, by decide⟩

/-- **C06, beyond the items' own names (false)**: a subclass `A` also puts a type `ACpp` in the bridge
(engine/src/conversion/codegen_rs/mod.rs:570-575), which the check does not look at: a C++ type `ACpp`
in some namespace survives next to it. -/
theorem check_names_subclass_peer_false :
    ∃ v : FnVec, v.Inv ∧ ∃ out sub ty, checkNames v = some out ∧ out.apis = [.subclass sub ⟨[], "Sup"⟩, ty] ∧
      FnApi.cxxbridgeName ty = some sub.cppPeer.name := by
  refine ⟨ApiVec.fromIter [.subclass ⟨⟨[], "A"⟩, none⟩ ⟨[], "Sup"⟩, .struct ⟨⟨["n"], "ACpp"⟩, none⟩ {} {}],
    ApiVec.extend_inv ApiVec.inv_empty _, _, ⟨⟨[], "A"⟩, none⟩, .struct ⟨⟨["n"], "ACpp"⟩, none⟩ {} {},
    rfl, ?_, ?_⟩
  · decide
  · decide

/-! ## C46 -/

theorem ctype_fold_get (l : List QName) (m : AMap Ident QName) (id : Ident) :
    (l.foldl (fun m ty => m.insert ty.name ty) m).get? id =
      ((l.filter fun t => t.name = id).getLast?).or (m.get? id) := by
  induction l generalizing m with
  | nil => simp
  | cons t r ih =>
    rw [List.foldl_cons, ih, AMap.get?_insert, List.filter_cons]
    by_cases h : t.name = id
    · simp only [h, if_true, decide_true]
      cases hr : r.filter (fun t => t.name = id) with
      | nil => simp
      | cons a b => simp [List.getLast?_cons]
    · simp [h]

theorem ctype_fold_wf (l : List QName) (m : AMap Ident QName) (hm : m.WF) :
    (l.foldl (fun m ty => m.insert ty.name ty) m).WF := by
  induction l generalizing m with
  | nil => exact hm
  | cons t r ih => exact ih _ (AMap.insert_wf hm _ _)

/-- The C types an item list uses. -/
def UsesCtype (l : List FnApi) (ty : QName) : Prop := isCtype ty = true ∧ ∃ a ∈ l, ty ∈ FnApi.deps a

theorem ctypesUsed_spec (l : List FnApi) (id : Ident) :
    (∀ ty, (ctypesUsed l).get? id = some ty → ty.name = id ∧ UsesCtype l ty) ∧
    ((ctypesUsed l).get? id = none ↔ ¬ ∃ ty, ty.name = id ∧ UsesCtype l ty) := by
  have e : (ctypesUsed l).get? id =
      (((l.flatMap FnApi.deps).filter isCtype).filter fun t => t.name = id).getLast? := by
    unfold ctypesUsed; rw [ctype_fold_get]; simp
  have mem : ∀ ty, ty ∈ (((l.flatMap FnApi.deps).filter isCtype).filter fun t => t.name = id) ↔
      ty.name = id ∧ UsesCtype l ty := by
    intro ty
    simp only [List.mem_filter, List.mem_flatMap, decide_eq_true_eq, UsesCtype]
    constructor
    · rintro ⟨⟨a, b⟩, c⟩; exact ⟨c, b, a⟩
    · rintro ⟨c, b, a⟩; exact ⟨⟨a, b⟩, c⟩
  rw [e]
  constructor
  · intro ty h
    exact (mem ty).1 (List.mem_of_getLast? h)
  · rw [List.getLast?_eq_none_iff, List.eq_nil_iff_forall_not_mem]
    constructor
    · rintro h ⟨ty, ht⟩; exact h ty ((mem ty).2 ht)
    · intro h ty ht; exact h ⟨ty, (mem ty).1 ht⟩

set_option maxRecDepth 10000 in
theorem ctype_same_table : ∀ p ∈ knownTypesLit.allNames, ∀ q ∈ knownTypesLit.allNames,
    p.name = q.name → knownTypesLit.get p = knownTypesLit.get q := by
  decide +kernel

/-- The item for a name after adding the C types. -/
theorem appendCtypes_get (v : FnVec) (hv : v.Inv) (n : QName) :
    (appendCtypes v).get? n =
      if n.ns = [] then
        match (ctypesUsed v.apis).get? n.name with
        | some ty => specMerge (v.get? n) (.ctype ⟨n, none⟩ ty)
        | none => v.get? n
      else v.get? n := by
  have key : ∀ (m : AMap Ident QName), m.WF → ∀ w : FnVec, w.Inv →
      (m.foldl (fun (v : FnVec) p => v.push (.ctype (ApiName.ofQName ⟨[], p.1⟩) p.2)) w).get? n =
      if n.ns = [] then
        match m.get? n.name with
        | some ty => specMerge (w.get? n) (.ctype ⟨n, none⟩ ty)
        | none => w.get? n
      else w.get? n := by
    intro m
    induction m with
    | nil => intro _ w _; simp
    | cons p m ih =>
      intro hm w hw
      obtain ⟨id, ty⟩ := p
      simp only [AMap.WF, AMap.keys, List.map_cons, List.nodup_cons] at hm
      rw [List.foldl_cons, ih hm.2 _ (ApiVec.push_inv hw _)]
      obtain ⟨ns, nm⟩ := n
      rw [apivec_push_spec w hw]
      have en : (Api.ctype (ApiName.ofQName ⟨[], id⟩) ty : FnApi).name = ⟨[], id⟩ := rfl
      rw [en]
      simp only [AMap.get?]
      by_cases hns : ns = []
      · subst hns
        simp only [if_true, QName.mk.injEq, true_and]
        by_cases hid : id = nm
        · subst hid
          have hnone : AMap.get? m id = none := (AMap.get?_eq_none_iff m id).2 hm.1
          rw [hnone]
          simp [ApiName.ofQName]
        · simp [hid, Ne.symm hid]
      · simp [hns]
  exact key _ (ctype_fold_wf _ _ AMap.nil_wf) v hv

/-- **C46**: if no surviving item is itself called, in the global namespace, like a C type in use, then
afterwards each C type in use has exactly one definition, as an item of its own name, and every other
entry is what it was: nothing else is added and nothing changed. -/
theorem append_ctypes_partial (v : FnVec) (hv : v.Inv)
    (hno : ∀ ty, UsesCtype v.apis ty → v.get? ⟨[], ty.name⟩ = none) :
    (appendCtypes v).Inv ∧
    (∀ ty, UsesCtype v.apis ty → ∃ ty', ty'.name = ty.name ∧ knownGet ty' = knownGet ty ∧
      (appendCtypes v).get? ⟨[], ty.name⟩ = some (.ctype ⟨⟨[], ty.name⟩, none⟩ ty')) ∧
    (∀ n, (¬ ∃ ty, UsesCtype v.apis ty ∧ n = ⟨[], ty.name⟩) → (appendCtypes v).get? n = v.get? n) := by
  refine ⟨?_, ?_, ?_⟩
  · unfold appendCtypes
    generalize ctypesUsed v.apis = m
    clear hno
    induction m generalizing v with
    | nil => exact hv
    | cons p m ih => exact ih _ (ApiVec.push_inv hv _)
  · intro ty hu
    have hs := ctypesUsed_spec v.apis ty.name
    cases hg : (ctypesUsed v.apis).get? ty.name with
    | none => exact absurd ⟨ty, rfl, hu⟩ (hs.2.1 hg)
    | some ty' =>
      obtain ⟨h1, h2⟩ := hs.1 ty' hg
      refine ⟨ty', h1, ?_, ?_⟩
      · have m1 : ty'.name = ty.name := h1
        have k1 : isKnownType ty' = true := by
          have := h2.1; unfold isCtype at this; unfold isKnownType
          cases hk : knownGet ty' <;> simp_all
        have k2 : isKnownType ty = true := by
          have := hu.1; unfold isCtype at this; unfold isKnownType
          cases hk : knownGet ty <;> simp_all
        have mem : ∀ q, isKnownType q = true → q ∈ knownTypesLit.allNames := by
          intro q hq
          unfold isKnownType at hq
          rw [knownGet_eq_lit] at hq
          obtain ⟨d, hd⟩ := Option.isSome_iff_exists.1 hq
          exact known_get_mem _ hd
        rw [knownGet_eq_lit, knownGet_eq_lit]
        exact ctype_same_table _ (mem _ k1) _ (mem _ k2) m1
      · rw [appendCtypes_get v hv]
        simp only [if_true, hg]
        rw [hno ty hu]
        rfl
  · intro n hn
    rw [appendCtypes_get v hv]
    split
    · rename_i hns
      cases hg : (ctypesUsed v.apis).get? n.name with
      | none => rfl
      | some ty =>
        obtain ⟨h1, h2⟩ := (ctypesUsed_spec v.apis n.name).1 ty hg
        refine absurd ⟨ty, h2, ?_⟩ hn
        obtain ⟨ns, nm⟩ := n
        simp at hns h1; simp [hns, h1]
    · rfl

/-- **C46 without that condition (false)**: a C++ class called `c_int` in the global namespace, next to
a function using `int`: both the class and the C type definition are lost, replaced by one marker. -/
theorem append_ctypes_clash_false :
    ∃ v : FnVec, v.Inv ∧ ∃ cls ty, cls ∈ v.apis ∧ cls.isIgnored = false ∧ UsesCtype v.apis ty ∧
      cls ∉ (appendCtypes v).apis ∧ ∀ n ty', .ctype n ty' ∉ (appendCtypes v).apis := by
  have hk : isCtype ⟨["autocxx"], "c_int"⟩ = true := by
    unfold isCtype; rw [knownGet_eq_lit]; decide +kernel
  let cls : FnApi := .struct ⟨⟨[], "c_int"⟩, none⟩ {} {}
  let f : FnApi := .function ⟨⟨[], "f"⟩, none⟩ {} { deps := [⟨["autocxx"], "c_int"⟩] }
  let v : FnVec := { apis := [cls, f], names := [⟨[], "c_int"⟩, ⟨[], "f"⟩] }
  have hv : v.Inv := ⟨by decide, by decide⟩
  have hap : (appendCtypes v).apis = [f, ApiVec.duplicateMarker ⟨[], "c_int"⟩] := by
    have hu : ctypesUsed v.apis = [("c_int", ⟨["autocxx"], "c_int"⟩)] := by
      unfold ctypesUsed
      have : (v.apis.flatMap FnApi.deps) = [⟨["autocxx"], "c_int"⟩] := by decide
      rw [this, List.filter_cons, hk]
      rfl
    unfold appendCtypes
    rw [hu, List.foldl_cons, List.foldl_nil, ApiVec.push_apis hv]
    rfl
  refine ⟨v, hv, cls, ⟨["autocxx"], "c_int"⟩, by simp [v], rfl, ⟨hk, f, by simp [v], ?_⟩, ?_, ?_⟩
  · decide
  · rw [hap]; decide
  · rw [hap]
    intro n ty' h
    simp [f, ApiVec.duplicateMarker] at h

/-- The condition of `append_ctypes_partial` is met by ordinary items, with a C type in use. -/
example : let v : FnVec := { apis := [.function ⟨⟨[], "f"⟩, none⟩ {}
      { deps := [⟨["autocxx"], "c_int"⟩] }], names := [⟨[], "f"⟩] }
    v.Inv ∧ UsesCtype v.apis ⟨["autocxx"], "c_int"⟩ ∧
    ∀ ty, UsesCtype v.apis ty → v.get? ⟨[], ty.name⟩ = none := by
  have hk : isCtype ⟨["autocxx"], "c_int"⟩ = true := by
    unfold isCtype; rw [knownGet_eq_lit]; decide +kernel
  refine ⟨⟨by decide, by decide⟩, ⟨hk, _, List.mem_singleton.2 rfl, by decide⟩, ?_⟩
  rintro ty ⟨-, a, ha, hd⟩
  simp at ha; subst ha
  simp [FnApi.deps] at hd; subst hd
  decide

end Verif
