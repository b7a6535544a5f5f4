import Mathlib.Data.List.Nodup
import Verif.Dec
import Verif.OutFilesProps
import Verif.Config

/-!
# The names of the output files

Properties C32 and C34: which files a run of the command line generator or of the builder writes,
that no two of them share a name, and that the set of files is fixed in advance when an exact
number is asked for.
-/

set_option autoImplicit false

namespace Verif

/-! ## Specification -/

/-- C32: the files promised to a build system which asks for exactly `n` of each kind. -/
def Promised (o : GenOptions) (n : Nat) (name : String) : Prop :=
  (o.genCpp = true ∧ ∃ i, i < n ∧
    (name = "gen" ++ Nat.repr i ++ "." ++ o.cppExtension ∨ name = "gen" ++ Nat.repr i ++ ".h" ∨
      name = "autocxxgen" ++ Nat.repr i ++ ".h")) ∨
  (o.generateCxxH = true ∧ name = "cxx.h") ∨
  (o.genRsInclude = true ∧ ∃ i, i < n ∧ name = "gen" ++ Nat.repr i ++ ".include.rs") ∨
  (o.genRsArchive = true ∧ name = "gen.rs.json")

/-- The number of C++ files made from one block. -/
def pairCount : Buildable → Nat
  | .autocxx _ _ _ _ none => 1
  | .autocxx _ _ _ _ (some _) => 2
  | .parseOnly _ => 0
  | .bridge _ => 1

/-- The number of Rust files made from one block. -/
def rsCount : Buildable → Nat
  | .autocxx .. => 1
  | .parseOnly _ => 1
  | .bridge _ => 0

/-- C++ can be made from the block. -/
def HasCpp : Buildable → Prop
  | .autocxx _ _ _ cxx _ => cxx ≠ none
  | .parseOnly _ => False
  | .bridge cxx => cxx ≠ none

/-- A sum over the blocks. -/
def total (f : Buildable → Nat) : List Buildable → Nat
  | [] => 0
  | b :: r => f b + total f r

/-! ## What every name stands for -/

/-- What a written file is. -/
inductive OutName where
  | cc (i : Nat)
  | cxx (i : Nat)
  | autocxx (i : Nat) (modName : String)
  | includeRs (i : Nat)
  | rs (file : String)
  | cxxH
  | archive
deriving DecidableEq

/-- How it is called. -/
def OutName.render (ext : String) (exact : Bool) : OutName → String
  | .cc i => "gen" ++ Nat.repr i ++ "." ++ ext
  | .cxx i => if exact then "gen" ++ Nat.repr i ++ ".h"
      else if i = 0 then "cxxgen.h" else "cxxgen" ++ Nat.repr i ++ ".h"
  | .autocxx i m => if exact then "autocxxgen" ++ Nat.repr i ++ ".h"
      else "autocxxgen_" ++ m ++ ".h"
  | .includeRs i => "gen" ++ Nat.repr i ++ ".include.rs"
  | .rs f => f
  | .cxxH => "cxx.h"
  | .archive => "gen.rs.json"

/-- The C++ files in the order of writing: `c` numbers the implementation files, `e` and `k` the
cxx headers of `include_cpp!` blocks and of bridges, `a` the autocxx headers. -/
def cppNames (c e a k : Nat) : List Buildable → List OutName
  | [] => []
  | .autocxx _ _ _ _ none :: r => .cc c :: .cxx e :: cppNames (c + 1) (e + 1) a k r
  | .autocxx m _ _ _ (some _) :: r =>
    .cc c :: .cxx e :: .cc (c + 1) :: .autocxx a m :: cppNames (c + 2) (e + 1) (a + 1) k r
  | .parseOnly _ :: r => cppNames c e a k r
  | .bridge _ :: r => .cc c :: .cxx k :: cppNames (c + 1) e a (k + 1) r

/-- 1 for an `include_cpp!` block. -/
def isEngine : Buildable → Nat
  | .autocxx .. => 1
  | _ => 0

/-- 1 for a bridge. -/
def isBridge : Buildable → Nat
  | .bridge _ => 1
  | _ => 0

/-- 1 for an `include_cpp!` block which needs extra C++. -/
def isExtra : Buildable → Nat
  | .autocxx _ _ _ _ (some _) => 1
  | _ => 0

/-! ## Lists of names -/

theorem actionNames_append (a b : List Action) :
    actionNames (a ++ b) = actionNames a ++ actionNames b := by
  induction a with
  | nil => rfl
  | cons x r ih => cases x <;> simp [actionNames, ih]

theorem NoFail.append {a b : List Action} : NoFail (a ++ b) ↔ NoFail a ∧ NoFail b := by
  simp only [NoFail, List.mem_append, not_or]
  exact ⟨fun h => ⟨fun e => (h e).1, fun e => (h e).2⟩, fun h e => ⟨h.1 e, h.2 e⟩⟩

theorem NoFail.nil : NoFail [] := fun _ h => by cases h

theorem NoFail.write {n c : String} {r : List Action} :
    NoFail (.write n c :: r) ↔ NoFail r := by
  simp [NoFail]

theorem noFail_fail {e : MainErr} {r : List Action} : ¬ NoFail (.fail e :: r) :=
  fun h => h e (by simp)

theorem mem_actionNames {acts : List Action} {name : String} :
    name ∈ actionNames acts ↔ contentsFor name acts ≠ [] := by
  induction acts with
  | nil => simp [actionNames, contentsFor]
  | cons a r ih =>
    cases a with
    | fail e => exact ih
    | write n c =>
      simp only [actionNames, contentsFor, List.mem_cons]
      by_cases h : n = name
      · simp [h]
      · rw [if_neg h, ← ih]
        exact or_iff_right fun e => h e.symm

theorem consistent_of_nodup {acts : List Action} (h : (actionNames acts).Nodup) :
    Consistent acts := by
  have key : ∀ (acts : List Action) (name : String), (actionNames acts).Nodup →
      (contentsFor name acts).length ≤ 1 := by
    intro acts name
    induction acts with
    | nil => intro _; simp [contentsFor]
    | cons a r ih =>
      cases a with
      | fail e => exact ih
      | write n c =>
        intro hn
        simp only [actionNames, List.nodup_cons] at hn
        simp only [contentsFor]
        split
        · next e =>
          have : contentsFor name r = [] := by
            by_contra hc
            exact hn.1 (e ▸ mem_actionNames.2 hc)
          simp [this]
        · exact ih hn.2
  intro name a ha b hb
  have hk := key acts name h
  cases hc : contentsFor name acts with
  | nil => rw [hc] at ha; cases ha
  | cons x r =>
    rw [hc] at hk ha hb
    have : r = [] := by
      cases r with
      | nil => rfl
      | cons y r => simp only [List.length_cons] at hk; omega
    subst this
    rw [List.mem_singleton.1 ha, List.mem_singleton.1 hb]

/-! ## Placeholders -/

theorem placeholderLoop_names (f : Nat → String) (c n : Nat) :
    actionNames (placeholderLoop f c n) = (List.range n).map fun i => f (c + i) := by
  induction n generalizing c with
  | zero => rfl
  | succ n ih =>
    rw [placeholderLoop, actionNames, ih, List.range_succ_eq_map, List.map_cons, List.map_map]
    congr 1
    refine List.map_congr_left fun i _ => ?_
    simp only [Function.comp]
    congr 1
    omega

theorem placeholderLoop_noFail (f : Nat → String) (c n : Nat) :
    NoFail (placeholderLoop f c n) := by
  induction n generalizing c with
  | zero => exact NoFail.nil
  | succ n ih => rw [placeholderLoop, NoFail.write]; exact ih _

theorem writePlaceholders_noFail (c : Nat) (d : Option Nat) (f : Nat → String) :
    NoFail (writePlaceholders c d f) ↔ ∀ n, d = some n → c ≤ n := by
  unfold writePlaceholders
  cases d with
  | none => simp [NoFail.nil]
  | some n =>
    dsimp only
    split
    · next h =>
      simp only [noFail_fail, Option.some.injEq, false_iff]
      intro hc
      have := hc n rfl
      omega
    · next h =>
      simp only [placeholderLoop_noFail, Option.some.injEq, true_iff]
      intro m hm; omega

/-- The numbers from `c` up to `n`. -/
def upTo (c : Nat) : Option Nat → List Nat
  | none => []
  | some n => (List.range (n - c)).map fun i => c + i

theorem writePlaceholders_names {c : Nat} {d : Option Nat} {f : Nat → String}
    (h : NoFail (writePlaceholders c d f)) :
    actionNames (writePlaceholders c d f) = (upTo c d).map f := by
  have hc := (writePlaceholders_noFail c d f).1 h
  unfold writePlaceholders upTo
  cases d with
  | none => rfl
  | some n =>
    dsimp only
    rw [if_neg (by have := hc n rfl; omega), placeholderLoop_names, List.map_map]
    rfl

theorem mem_upTo {c n i : Nat} : i ∈ upTo c (some n) ↔ c ≤ i ∧ i < n := by
  simp only [upTo, List.mem_map, List.mem_range]
  constructor
  · rintro ⟨j, hj, rfl⟩; omega
  · intro ⟨h1, h2⟩; exact ⟨i - c, by omega, by omega⟩

theorem upTo_nodup (c : Nat) (d : Option Nat) : (upTo c d).Nodup := by
  cases d with
  | none => exact .nil
  | some n => exact (List.nodup_range).map fun a b h => by omega

/-! ## Resolving -/

theorem resolveNames_counts (n : Namers) (bs : List Buildable) :
    (resolveNames n bs).2.exact = n.exact ∧
      (resolveNames n bs).2.cxx = n.cxx + total isEngine bs ∧
      (n.exact = true → (resolveNames n bs).2.autocxx = n.autocxx + total isExtra bs) := by
  induction bs generalizing n with
  | nil => simp [resolveNames, total]
  | cons b r ih =>
    simp only [resolveNames]
    cases b with
    | autocxx m f rs cxx cpp =>
      cases cpp with
      | none =>
        have := ih n.nameCxx.2
        simp only [resolveOne, Namers.nameCxx, total, isEngine, isExtra] at this ⊢
        refine ⟨this.1, by omega, fun h => by have := this.2.2 h; omega⟩
      | some p =>
        have := ih (n.nameCxx.2.nameAutocxx m).2
        by_cases he : n.exact = true
        · simp only [resolveOne, Namers.nameCxx, Namers.nameAutocxx, total, isEngine, isExtra, he,
            if_true, true_implies] at this ⊢
          exact ⟨this.1, by omega, by omega⟩
        · simp only [resolveOne, Namers.nameCxx, Namers.nameAutocxx, total, isEngine, isExtra, he,
            if_false, false_implies, and_true, Bool.false_eq_true] at this ⊢
          exact ⟨this.1, by omega⟩
    | parseOnly f => simpa [resolveOne, total, isEngine, isExtra] using ih n
    | bridge cxx => simpa [resolveOne, total, isEngine, isExtra] using ih n

theorem total_le {f g : Buildable → Nat} (h : ∀ b, f b ≤ g b) (bs : List Buildable) :
    total f bs ≤ total g bs := by
  induction bs with
  | nil => exact Nat.le_refl _
  | cons b r ih => simp only [total]; have := h b; omega

/-- The number of an autocxx header does not matter where headers are named after modules. -/
theorem render_autocxx_index (ext : String) (c e a a' k : Nat) (bs : List Buildable) :
    (cppNames c e a k bs).map (OutName.render ext false) =
      (cppNames c e a' k bs).map (OutName.render ext false) := by
  induction bs generalizing c e a a' k with
  | nil => rfl
  | cons b r ih =>
    cases b with
    | autocxx m f rs cxx cpp =>
      cases cpp with
      | none => simp only [cppNames, List.map_cons]; rw [ih]
      | some p =>
        simp only [cppNames, List.map_cons]
        rw [ih (c + 2) (e + 1) (a + 1) (a' + 1) k]
        rfl
    | parseOnly f => exact ih c e a a' k
    | bridge cxx => simp only [cppNames, List.map_cons]; rw [ih]

/-- What is written for the resolved blocks, when nothing fails. The header namers continue where
resolving left off. -/
theorem writeBuildables_names (ext : String) (c k : Nat) (n n' : Namers) (bs : List Buildable)
    (hex : n'.exact = n.exact) (hk : n'.cxx = k)
    (hnf : NoFail (writeBuildables ext c n' (resolveNames n bs).1).1) :
    actionNames (writeBuildables ext c n' (resolveNames n bs).1).1 =
        (cppNames c n.cxx n.autocxx k bs).map (OutName.render ext n.exact) ∧
      (writeBuildables ext c n' (resolveNames n bs).1).2.1 = c + total pairCount bs ∧
      (writeBuildables ext c n' (resolveNames n bs).1).2.2 =
        { n' with cxx := k + total isBridge bs } ∧
      ∀ b ∈ bs, HasCpp b := by
  induction bs generalizing c n n' k with
  | nil => subst hk; simp [resolveNames, writeBuildables, cppNames, total, actionNames]
  | cons b r ih =>
    cases b with
    | autocxx m f rs cxx cpp =>
      cases cpp with
      | none =>
        simp only [resolveNames, resolveOne] at hnf ⊢
        cases cxx with
        | none => exact absurd hnf noFail_fail
        | some p =>
          obtain ⟨hdr, impl⟩ := p
          simp only [writeBuildables, generateHAndCxx, Option.toList, List.length_singleton,
            writePairs, NoFail.append, NoFail.write] at hnf ⊢
          obtain ⟨h1, h2, h3, h4⟩ := ih (c + 1) k n.nameCxx.2 n' hex hk hnf.2
          refine ⟨?_, ?_, ?_, ?_⟩
          · simp only [actionNames_append, actionNames, h1, cppNames, List.map_cons]
            simp [OutName.render, Namers.nameCxx, nameCcFile, nameCxxgenH]
          · rw [h2]; simp only [total, pairCount]; omega
          · rw [h3]; simp only [total, isBridge]; congr 1; omega
          · intro b hb
            rcases List.mem_cons.1 hb with rfl | hb
            · simp [HasCpp]
            · exact h4 b hb
      | some p2 =>
        obtain ⟨ah, ai⟩ := p2
        simp only [resolveNames, resolveOne] at hnf ⊢
        cases cxx with
        | none => exact absurd hnf noFail_fail
        | some p =>
          obtain ⟨hdr, impl⟩ := p
          simp only [writeBuildables, generateHAndCxx, Option.toList, List.length_cons,
            List.length_nil, writePairs, NoFail.append, NoFail.write] at hnf ⊢
          have hex2 : n'.exact = (n.nameCxx.2.nameAutocxx m).2.exact := by
            by_cases he : n.exact = true <;> simp [Namers.nameCxx, Namers.nameAutocxx, he, hex]
          obtain ⟨h1, h2, h3, h4⟩ := ih (c + (0 + 1 + 1)) k (n.nameCxx.2.nameAutocxx m).2 n' hex2 hk
            hnf.2
          refine ⟨?_, ?_, ?_, ?_⟩
          · simp only [actionNames_append, actionNames, h1, cppNames, List.map_cons, ← hex2, hex]
            by_cases he : n.exact = true
            · simp [OutName.render, Namers.nameCxx, Namers.nameAutocxx, nameCcFile, nameCxxgenH,
                nameAutocxxgenH, he]
            · have he' : n.exact = false := by simpa using he
              simp only [Namers.nameCxx, Namers.nameAutocxx, he', Bool.false_eq_true, if_false]
              rw [render_autocxx_index ext (c + 2) (n.cxx + 1) n.autocxx (n.autocxx + 1) k r]
              simp [OutName.render, nameCcFile]
          · rw [h2]; simp only [total, pairCount]; omega
          · rw [h3]; simp only [total, isBridge]; congr 1; omega
          · intro b hb
            rcases List.mem_cons.1 hb with rfl | hb
            · simp [HasCpp]
            · exact h4 b hb
    | parseOnly f => exact absurd hnf noFail_fail
    | bridge cxx =>
      simp only [resolveNames, resolveOne] at hnf ⊢
      cases cxx with
      | none => exact absurd hnf noFail_fail
      | some p =>
        obtain ⟨hdr, impl⟩ := p
        simp only [writeBuildables, generateHAndCxx, List.length_singleton, writePairs,
          NoFail.append, NoFail.write] at hnf ⊢
        obtain ⟨h1, h2, h3, h4⟩ := ih (c + 1) (k + 1) n n'.nameCxx.2 hex
          (by simp [Namers.nameCxx, hk]) hnf.2
        refine ⟨?_, ?_, ?_, ?_⟩
        · simp only [actionNames_append, actionNames, h1, cppNames, List.map_cons]
          simp [OutName.render, Namers.nameCxx, nameCcFile, nameCxxgenH, hex, hk]
        · rw [h2]; simp only [total, pairCount]; omega
        · rw [h3]; simp only [total, isBridge, Namers.nameCxx]; congr 1; omega
        · intro b hb
          rcases List.mem_cons.1 hb with rfl | hb
          · simp [HasCpp]
          · exact h4 b hb

/-! ## Everything `main` writes -/

/-- Everything a run writes, in order. -/
def mainNames (o : GenOptions) (bs : List Buildable) : List OutName :=
  (if o.genCpp then
    cppNames 0 0 0 (total isEngine bs) bs ++
      ((upTo (total pairCount bs) o.generateExact).map .cc ++
        ((upTo (total isEngine bs + total isBridge bs) o.generateExact).map .cxx ++
          (upTo (total isExtra bs) o.generateExact).map fun i => .autocxx i ""))
   else []) ++
  ((if o.generateCxxH then [.cxxH] else []) ++
    ((if o.genRsInclude then
        (if o.fixRsIncludeName then (List.range (total rsCount bs)).map .includeRs
          else (rsOutputs (resolveNames (Namers.start o.generateExact.isSome) bs).1).map
            fun p => .rs p.1) ++
          (upTo (total rsCount bs) o.generateExact).map .includeRs
      else []) ++
      (if o.genRsArchive then [.archive] else [])))

theorem rsOutputs_length (n : Namers) (bs : List Buildable) :
    (rsOutputs (resolveNames n bs).1).length = total rsCount bs := by
  induction bs generalizing n with
  | nil => rfl
  | cons b r ih =>
    cases b with
    | autocxx m f rs cxx cpp =>
      cases cpp with
      | none =>
        have := ih n.nameCxx.2
        simp only [rsOutputs] at this
        simp only [resolveNames, resolveOne, rsOutputs, List.filterMap_cons, List.length_cons, this,
          total, rsCount]
        omega
      | some p =>
        have := ih (n.nameCxx.2.nameAutocxx m).2
        simp only [rsOutputs] at this
        simp only [resolveNames, resolveOne, rsOutputs, List.filterMap_cons, List.length_cons, this,
          total, rsCount]
        omega
    | parseOnly f =>
      have := ih n
      simp only [rsOutputs] at this
      simp only [resolveNames, resolveOne, rsOutputs, List.filterMap_cons, List.length_cons, this,
        total, rsCount]
      omega
    | bridge cxx =>
      have := ih n
      simp only [rsOutputs] at this
      simp only [resolveNames, resolveOne, rsOutputs, List.filterMap_cons, this, total, rsCount]
      omega

theorem writeRs_noFail (fix : Bool) (c : Nat) (l : List (String × String)) :
    NoFail (writeRs fix c l) := by
  induction l generalizing c with
  | nil => exact NoFail.nil
  | cons p r ih => rw [writeRs, NoFail.write]; exact ih _

theorem writeRs_names (fix : Bool) (c : Nat) (l : List (String × String)) :
    actionNames (writeRs fix c l) =
      if fix then (List.range l.length).map fun i => nameIncludeRs (c + i) else l.map (·.1) := by
  induction l generalizing c with
  | nil => cases fix <;> rfl
  | cons p r ih =>
    rw [writeRs, actionNames, ih]
    cases fix with
    | false => rfl
    | true =>
      simp only [if_true, List.length_cons, List.range_succ_eq_map, List.map_cons, List.map_map]
      congr 1
      refine List.map_congr_left fun i _ => ?_
      simp only [Function.comp]
      congr 1
      omega

theorem main_names {o : GenOptions} {cxxH archive : String} {bs : List Buildable}
    (hnf : NoFail (mainActions o cxxH archive bs)) :
    actionNames (mainActions o cxxH archive bs) =
      (mainNames o bs).map (OutName.render o.cppExtension o.generateExact.isSome) := by
  unfold mainActions at hnf ⊢
  simp only [NoFail.append] at hnf
  obtain ⟨hcpp, _, hrs, _⟩ := hnf
  unfold mainNames
  simp only [actionNames_append, List.map_append]
  obtain ⟨hr1, hr2, hr3⟩ := resolveNames_counts (Namers.start o.generateExact.isSome) bs
  congr 1
  · unfold cppActions at hcpp ⊢
    cases hg : o.genCpp with
    | false => rfl
    | true =>
      simp only [hg, if_true, NoFail.append] at hcpp ⊢
      obtain ⟨h1, h2, h3, h4⟩ := hcpp
      obtain ⟨e1, e2, e3, _⟩ := writeBuildables_names o.cppExtension 0 (total isEngine bs)
        (Namers.start o.generateExact.isSome) _ bs hr1 (by rw [hr2]; simp [Namers.start]) h1
      rw [e3] at h3 h4
      rw [e2] at h2
      simp only [actionNames_append, List.map_append, e1, e2, e3, List.map_map]
      rw [writePlaceholders_names h2, writePlaceholders_names h3, writePlaceholders_names h4]
      cases hx : o.generateExact with
      | none => simp [upTo, Namers.start]
      | some n =>
        rw [hx] at hr3
        have h5 := hr3 rfl
        simp only [Namers.start, Option.isSome_some] at h5 ⊢
        rw [h5]
        simp only [Nat.zero_add]
        rfl
  · congr 1
    · cases o.generateCxxH <;> rfl
    · congr 1
      · unfold rsActions at hrs ⊢
        cases hg : o.genRsInclude with
        | false => rfl
        | true =>
          simp only [hg, if_true] at hrs ⊢
          split at hrs
          · exact absurd hrs noFail_fail
          · next hc =>
            rw [if_neg hc]
            simp only [NoFail.append] at hrs
            rw [actionNames_append, writeRs_names, writePlaceholders_names hrs.2, rsOutputs_length]
            simp only [List.map_append]
            congr 1
            · cases hf : o.fixRsIncludeName with
              | true =>
                simp only [if_true, List.map_map]
                refine List.map_congr_left fun i _ => ?_
                simp [OutName.render, nameIncludeRs]
              | false => simp [List.map_map, Function.comp_def, OutName.render]
            · simp only [List.map_map]; rfl
      · cases o.genRsArchive <;> rfl

/-! ### Which names there are -/

theorem cc_mem {c e a k i : Nat} {bs : List Buildable} :
    OutName.cc i ∈ cppNames c e a k bs ↔ c ≤ i ∧ i < c + total pairCount bs := by
  induction bs generalizing c e a k with
  | nil => simp [cppNames, total]
  | cons b r ih =>
    cases b with
    | autocxx m f rs cxx cpp =>
      cases cpp <;>
        simp only [cppNames, List.mem_cons, reduceCtorEq, OutName.cc.injEq, false_or, ih, total,
          pairCount] <;> omega
    | parseOnly f => simp only [cppNames, ih, total, pairCount]; omega
    | bridge cxx =>
      simp only [cppNames, List.mem_cons, reduceCtorEq, OutName.cc.injEq, false_or, ih, total,
        pairCount]
      omega

theorem cxx_mem {c e a k i : Nat} {bs : List Buildable} :
    OutName.cxx i ∈ cppNames c e a k bs ↔
      (e ≤ i ∧ i < e + total isEngine bs) ∨ (k ≤ i ∧ i < k + total isBridge bs) := by
  induction bs generalizing c e a k with
  | nil => simp [cppNames, total]
  | cons b r ih =>
    cases b with
    | autocxx m f rs cxx cpp =>
      cases cpp <;>
        simp only [cppNames, List.mem_cons, reduceCtorEq, OutName.cxx.injEq, false_or, ih, total,
          isEngine, isBridge] <;> omega
    | parseOnly f => simp only [cppNames, ih, total, isEngine, isBridge]; omega
    | bridge cxx =>
      simp only [cppNames, List.mem_cons, reduceCtorEq, OutName.cxx.injEq, false_or, ih, total,
        isEngine, isBridge]
      omega

theorem autocxx_mem {c e a k i : Nat} {bs : List Buildable} :
    (∃ m, OutName.autocxx i m ∈ cppNames c e a k bs) ↔ a ≤ i ∧ i < a + total isExtra bs := by
  induction bs generalizing c e a k with
  | nil => simp [cppNames, total]
  | cons b r ih =>
    cases b with
    | autocxx m f rs cxx cpp =>
      cases cpp with
      | none =>
        simp only [cppNames, List.mem_cons, reduceCtorEq, false_or, ih, total, isExtra]; omega
      | some p =>
        simp only [cppNames, List.mem_cons, reduceCtorEq, false_or, OutName.autocxx.injEq,
          exists_or, ih, total, isExtra, exists_and_left, exists_eq,
          and_true]
        omega
    | parseOnly f => simp only [cppNames, ih, total, isExtra]; omega
    | bridge cxx =>
      simp only [cppNames, List.mem_cons, reduceCtorEq, false_or, ih, total, isExtra]; omega

theorem cppNames_other {c e a k : Nat} {bs : List Buildable} {x : OutName}
    (h : x ∈ cppNames c e a k bs) :
    (∃ i, x = .cc i) ∨ (∃ i, x = .cxx i) ∨ ∃ i m, x = .autocxx i m := by
  induction bs generalizing c e a k with
  | nil => cases h
  | cons b r ih =>
    cases b with
    | autocxx m f rs cxx cpp =>
      cases cpp with
      | none =>
        simp only [cppNames, List.mem_cons] at h
        rcases h with rfl | rfl | h
        · exact .inl ⟨_, rfl⟩
        · exact .inr (.inl ⟨_, rfl⟩)
        · exact ih h
      | some p =>
        simp only [cppNames, List.mem_cons] at h
        rcases h with rfl | rfl | rfl | rfl | h
        · exact .inl ⟨_, rfl⟩
        · exact .inr (.inl ⟨_, rfl⟩)
        · exact .inl ⟨_, rfl⟩
        · exact .inr (.inr ⟨_, _, rfl⟩)
        · exact ih h
    | parseOnly f => exact ih h
    | bridge cxx =>
      simp only [cppNames, List.mem_cons] at h
      rcases h with rfl | rfl | h
      · exact .inl ⟨_, rfl⟩
      · exact .inr (.inl ⟨_, rfl⟩)
      · exact ih h

/-! ## C32: an exact number of files -/

theorem headers_le_pairs (bs : List Buildable) :
    total isEngine bs + total isBridge bs ≤ total pairCount bs := by
  induction bs with
  | nil => simp [total]
  | cons b r ih =>
    simp only [total]
    have : isEngine b + isBridge b ≤ pairCount b := by
      cases b with
      | autocxx m f rs cxx cpp => cases cpp <;> simp [isEngine, isBridge, pairCount]
      | parseOnly f => simp [isEngine, isBridge, pairCount]
      | bridge cxx => simp [isEngine, isBridge, pairCount]
    omega

theorem extras_le_pairs (bs : List Buildable) : total isExtra bs ≤ total pairCount bs := by
  refine total_le (fun b => ?_) bs
  cases b with
  | autocxx m f rs cxx cpp => cases cpp <;> simp [isExtra, pairCount]
  | parseOnly f => simp [isExtra, pairCount]
  | bridge cxx => simp [isExtra, pairCount]

theorem writePairs_noFail (ext : String) (c : Nat) (l : List FilePair) :
    NoFail (writePairs ext c l) := by
  induction l generalizing c with
  | nil => exact NoFail.nil
  | cons p r ih => rw [writePairs, NoFail.write, NoFail.write]; exact ih _

theorem writeBuildables_noFail (ext : String) (c : Nat) (n n' : Namers) (bs : List Buildable) :
    NoFail (writeBuildables ext c n' (resolveNames n bs).1).1 ↔ ∀ b ∈ bs, HasCpp b := by
  induction bs generalizing c n n' with
  | nil => simp [resolveNames, writeBuildables, NoFail.nil]
  | cons b r ih =>
    simp only [List.forall_mem_cons]
    cases b with
    | autocxx m f rs cxx cpp =>
      cases cpp with
      | none =>
        simp only [resolveNames, resolveOne]
        cases cxx with
        | none => simp [writeBuildables, generateHAndCxx, noFail_fail, HasCpp]
        | some p => simp [writeBuildables, generateHAndCxx, NoFail.append, writePairs_noFail, ih,
            HasCpp]
      | some q =>
        simp only [resolveNames, resolveOne]
        cases cxx with
        | none => simp [writeBuildables, generateHAndCxx, noFail_fail, HasCpp]
        | some p => simp [writeBuildables, generateHAndCxx, NoFail.append, writePairs_noFail, ih,
            HasCpp]
    | parseOnly f =>
      simp [resolveNames, resolveOne, writeBuildables, generateHAndCxx, noFail_fail, HasCpp]
    | bridge cxx =>
      simp only [resolveNames, resolveOne]
      cases cxx with
      | none => simp [writeBuildables, generateHAndCxx, noFail_fail, HasCpp]
      | some p => simp [writeBuildables, generateHAndCxx, NoFail.append, writePairs_noFail, ih,
          HasCpp]

/-- C32: exactly when the run does not fail by itself: C++ can be made from all blocks, and neither
the C++ files nor the Rust files are more than asked for. -/
theorem counts_noFail {o : GenOptions} {cxxH archive : String} {bs : List Buildable} {n : Nat}
    (hx : o.generateExact = some n) :
    NoFail (mainActions o cxxH archive bs) ↔
      (o.genCpp = true → (∀ b ∈ bs, HasCpp b) ∧ total pairCount bs ≤ n) ∧
      (o.genRsInclude = true → o.fixRsIncludeName = true ∧ total rsCount bs ≤ n) := by
  unfold mainActions
  simp only [NoFail.append]
  have h2 : NoFail (if o.generateCxxH then [Action.write "cxx.h" cxxH] else []) := by
    split
    · exact NoFail.write.2 NoFail.nil
    · exact NoFail.nil
  have h4 : NoFail (if o.genRsArchive then [Action.write "gen.rs.json" archive] else []) := by
    split
    · exact NoFail.write.2 NoFail.nil
    · exact NoFail.nil
  simp only [h2, h4, true_and, and_true]
  refine and_congr ?_ ?_
  · unfold cppActions
    cases hg : o.genCpp with
    | false => simp [NoFail.nil]
    | true =>
      obtain ⟨hr1, hr2, hr3⟩ := resolveNames_counts (Namers.start o.generateExact.isSome) bs
      simp only [if_true, true_implies, NoFail.append]
      constructor
      · rintro ⟨h1, h5, h6, h7⟩
        refine ⟨(writeBuildables_noFail _ _ _ _ _).1 h1, ?_⟩
        have e := (writeBuildables_names o.cppExtension 0 (total isEngine bs)
          (Namers.start o.generateExact.isSome) _ bs hr1 (by rw [hr2]; simp [Namers.start]) h1).2.1
        rw [e, writePlaceholders_noFail] at h5
        have := h5 n hx
        omega
      · rintro ⟨h1, h5⟩
        have h1' := (writeBuildables_noFail o.cppExtension 0
          (Namers.start o.generateExact.isSome)
          (resolveNames (Namers.start o.generateExact.isSome) bs).2 bs).2 h1
        obtain ⟨_, e2, e3, _⟩ := writeBuildables_names o.cppExtension 0 (total isEngine bs)
          (Namers.start o.generateExact.isSome) _ bs hr1 (by rw [hr2]; simp [Namers.start]) h1'
        have hle1 := headers_le_pairs bs
        have hle2 := extras_le_pairs bs
        refine ⟨h1', ?_, ?_, ?_⟩
        · rw [e2, writePlaceholders_noFail, hx]
          intro m hm; cases hm; omega
        · rw [e3, writePlaceholders_noFail, hx]
          intro m hm; cases hm; dsimp only; omega
        · rw [e3, writePlaceholders_noFail]
          have h5 := hr3 (by simp [Namers.start, hx])
          dsimp only
          rw [h5, hx]
          intro m hm; cases hm; simp only [Namers.start]; omega
  · unfold rsActions
    cases hg : o.genRsInclude with
    | false => simp [NoFail.nil]
    | true =>
      simp only [if_true, true_implies, hx, Option.isSome_some, Bool.and_true]
      cases hf : o.fixRsIncludeName with
      | false => simp [noFail_fail]
      | true =>
        simp only [Bool.not_true, Bool.false_eq_true, if_false, NoFail.append, writeRs_noFail,
          true_and, writePlaceholders_noFail, rsOutputs_length, Option.some.injEq, forall_eq']

/-- C32: when an exact number of files is asked for and the run succeeds, the files written are
those promised and no others, whatever the input was. -/
theorem exact_names {o : GenOptions} {cxxH archive : String} {bs : List Buildable} {n : Nat}
    (hx : o.generateExact = some n) (hnf : NoFail (mainActions o cxxH archive bs))
    (name : String) :
    name ∈ actionNames (mainActions o cxxH archive bs) ↔ Promised o n name := by
  have hc := (counts_noFail hx).1 hnf
  rw [main_names hnf]
  unfold mainNames Promised
  simp only [List.map_append, List.mem_append, hx, Option.isSome_some]
  refine or_congr ?_ (or_congr ?_ (or_congr ?_ ?_))
  · cases hg : o.genCpp with
    | false => simp
    | true =>
      have hc := (hc.1 hg).2
      have hle1 := headers_le_pairs bs
      have hle2 := extras_le_pairs bs
      simp only [if_true, true_and, List.map_append, List.mem_append, List.mem_map]
      constructor
      · rintro (⟨x, hx, rfl⟩ | ⟨x, ⟨i, hi, rfl⟩, rfl⟩ | ⟨x, ⟨i, hi, rfl⟩, rfl⟩ |
          ⟨x, ⟨i, hi, rfl⟩, rfl⟩)
        · rcases cppNames_other hx with ⟨i, rfl⟩ | ⟨i, rfl⟩ | ⟨i, m, rfl⟩
          · have := cc_mem.1 hx
            exact ⟨i, by omega, .inl rfl⟩
          · have := cxx_mem.1 hx
            exact ⟨i, by omega, .inr (.inl rfl)⟩
          · have := autocxx_mem.1 ⟨m, hx⟩
            exact ⟨i, by omega, .inr (.inr rfl)⟩
        · exact ⟨i, (mem_upTo.1 hi).2, .inl rfl⟩
        · exact ⟨i, (mem_upTo.1 hi).2, .inr (.inl rfl)⟩
        · exact ⟨i, (mem_upTo.1 hi).2, .inr (.inr rfl)⟩
      · rintro ⟨i, hi, rfl | rfl | rfl⟩
        · by_cases h : i < total pairCount bs
          · exact .inl ⟨.cc i, cc_mem.2 (by omega), rfl⟩
          · exact .inr (.inl ⟨.cc i, ⟨i, mem_upTo.2 (by omega), rfl⟩, rfl⟩)
        · by_cases h : i < total isEngine bs + total isBridge bs
          · exact .inl ⟨.cxx i, cxx_mem.2 (by omega), rfl⟩
          · exact .inr (.inr (.inl ⟨.cxx i, ⟨i, mem_upTo.2 (by omega), rfl⟩, rfl⟩))
        · by_cases h : i < total isExtra bs
          · obtain ⟨m, hm⟩ := autocxx_mem (c := 0) (e := 0) (a := 0) (k := total isEngine bs)
              (i := i) (bs := bs) |>.2 (by omega)
            exact .inl ⟨_, hm, rfl⟩
          · exact .inr (.inr (.inr ⟨.autocxx i "", ⟨i, mem_upTo.2 (by omega), rfl⟩, rfl⟩))
  · cases o.generateCxxH <;> simp [OutName.render]
  · cases hg : o.genRsInclude with
    | false => simp
    | true =>
      obtain ⟨hf, hc⟩ := hc.2 hg
      simp only [if_true, hf, List.map_append, List.mem_append, List.mem_map, true_and,
        List.mem_range]
      constructor
      · rintro (⟨x, ⟨i, hi, rfl⟩, rfl⟩ | ⟨x, ⟨i, hi, rfl⟩, rfl⟩)
        · exact ⟨i, by omega, rfl⟩
        · exact ⟨i, (mem_upTo.1 hi).2, rfl⟩
      · rintro ⟨i, hi, rfl⟩
        by_cases h : i < total rsCount bs
        · exact .inl ⟨.includeRs i, ⟨i, h, rfl⟩, rfl⟩
        · exact .inr ⟨.includeRs i, ⟨i, mem_upTo.2 (by omega), rfl⟩, rfl⟩
  · cases o.genRsArchive <;> simp [OutName.render]

/-- C32: after a successful run every promised file is there and every other file is as it was;
for every input, every directory and every behaviour of the operating system. -/
theorem exact_outputs {o : GenOptions} {cxxH archive : String} {bs : List Buildable} {n : Nat}
    {io : Nat → Io} {rel : String → Option String} {w w' : Writer}
    (hx : o.generateExact = some n)
    (h : runActions io rel w (mainActions o cxxH archive bs) = (w', none)) (name : String) :
    (Promised o n name → ∃ c, w'.files name = some c) ∧
      (¬ Promised o n name → w'.files name = w.files name) := by
  have hn := exact_names hx (runActions_noFail h) name
  rw [mem_actionNames] at hn
  rw [run_content h name]
  constructor
  · intro hp
    have := hn.2 hp
    unfold lastContent
    cases hl : (contentsFor name (mainActions o cxxH archive bs)).getLast? with
    | none => exact absurd (List.getLast?_eq_none_iff.1 hl) this
    | some c => exact ⟨c, rfl⟩
  · intro hp
    have : contentsFor name (mainActions o cxxH archive bs) = [] := by
      by_contra hc; exact hp (hn.1 hc)
    rw [this]; rfl

/-! ## C34: no two files share a name -/

theorem digits_dot {d e r t : List Char} (hd : ∀ c ∈ d, c.isDigit = true)
    (he : ∀ c ∈ e, c.isDigit = true) (h : d ++ '.' :: r = e ++ '.' :: t) : d = e ∧ r = t := by
  induction d generalizing e with
  | nil =>
    cases e with
    | nil => simpa using h
    | cons x e =>
      simp only [List.nil_append, List.cons_append, List.cons.injEq] at h
      have := he x (by simp)
      rw [← h.1] at this
      exact absurd this (by decide)
  | cons x d ih =>
    cases e with
    | nil =>
      simp only [List.nil_append, List.cons_append, List.cons.injEq] at h
      have := hd x (by simp)
      rw [h.1] at this
      exact absurd this (by decide)
    | cons y e =>
      simp only [List.cons_append, List.cons.injEq] at h
      obtain ⟨h1, h2⟩ := ih (fun c hc => hd c (by simp [hc])) (fun c hc => he c (by simp [hc])) h.2
      exact ⟨by rw [h.1, h1], h2⟩

/-- A number followed by a full stop can be read back. -/
theorem numberedFile_inj {p a b : String} {i j : Nat}
    (h : p ++ Nat.repr i ++ "." ++ a = p ++ Nat.repr j ++ "." ++ b) : i = j ∧ a = b := by
  have h := congrArg String.toList h
  simp only [String.toList_append, List.append_assoc] at h
  have h := List.append_cancel_left h
  rw [show (".":String).toList = ['.'] from rfl] at h
  obtain ⟨h1, h2⟩ := digits_dot (dec_digit i) (dec_digit j) h
  exact ⟨dec_inj (String.toList_inj.1 h1), String.toList_inj.1 h2⟩

theorem dotH (p : String) (i : Nat) : p ++ Nat.repr i ++ ".h" = p ++ Nat.repr i ++ "." ++ "h" := by
  rw [String.append_assoc (s₂ := ".")]
  rfl

theorem dotInclude (p : String) (i : Nat) :
    p ++ Nat.repr i ++ ".include.rs" = p ++ Nat.repr i ++ "." ++ "include.rs" := by
  rw [String.append_assoc (s₂ := ".")]
  rfl

theorem gen_numbered_ne_archive (i : Nat) (x : String) :
    "gen" ++ Nat.repr i ++ x ≠ "gen.rs.json" := by
  intro h
  have h := congrArg String.toList h
  simp only [String.toList_append, List.append_assoc] at h
  rw [show ("gen.rs.json" : String).toList = "gen".toList ++ ".rs.json".toList from rfl] at h
  have h := List.append_cancel_left h
  have hd := dec_digit i
  have hne := dec_ne_nil i
  simp only [dec] at hd hne
  cases hr : (Nat.repr i).toList with
  | nil => exact hne hr
  | cons c r =>
    rw [hr] at h hd
    have h1 := hd c (by simp)
    rw [show (".rs.json" : String).toList = '.' :: "rs.json".toList from rfl] at h
    simp only [List.cons_append, List.cons.injEq] at h
    rw [h.1] at h1
    exact absurd h1 (by decide)

/-- The first letter of a name. -/
def OutName.letter (exact : Bool) : OutName → Char
  | .cc _ => 'g'
  | .cxx _ => if exact then 'g' else 'c'
  | .autocxx .. => 'a'
  | .includeRs _ => 'g'
  | .rs _ => 'a'
  | .cxxH => 'c'
  | .archive => 'g'

/-- A Rust output file as autocxx names it. -/
def RsNamed (f : String) : Prop := ∃ x, f = "autocxx-" ++ x

theorem render_letter (ext : String) (exact : Bool) (x : OutName)
    (hrs : ∀ f, x = .rs f → RsNamed f) :
    (x.render ext exact).toList.head? = some (x.letter exact) := by
  have hg : ("gen" : String).toList = ['g', 'e', 'n'] := rfl
  have hc : ("cxxgen" : String).toList = ['c', 'x', 'x', 'g', 'e', 'n'] := rfl
  have ha : ("autocxxgen" : String).toList = 'a' :: "utocxxgen".toList := rfl
  have ha' : ("autocxxgen_" : String).toList = 'a' :: "utocxxgen_".toList := rfl
  cases x with
  | cc i => simp [OutName.render, OutName.letter, hg]
  | cxx i =>
    cases exact with
    | true => simp [OutName.render, OutName.letter, hg]
    | false =>
      simp only [OutName.render, OutName.letter, Bool.false_eq_true, if_false]
      split
      · rfl
      · simp [hc]
  | autocxx i m =>
    cases exact with
    | true => simp [OutName.render, OutName.letter, ha]
    | false => simp [OutName.render, OutName.letter, ha']
  | includeRs i => simp [OutName.render, OutName.letter, hg]
  | rs f =>
    obtain ⟨y, rfl⟩ := hrs f rfl
    have : ("autocxx-" : String).toList = 'a' :: "utocxx-".toList := rfl
    simp [OutName.render, OutName.letter, this]
  | cxxH => exact (by decide : ("cxx.h" : String).toList.head? = some 'c')
  | archive => exact (by decide : ("gen.rs.json" : String).toList.head? = some 'g')

theorem autocxxgen_ne_rs (a b : String) : "autocxxgen" ++ a ≠ "autocxx-" ++ b := by
  intro h
  have h := congrArg String.toList h
  simp only [String.toList_append] at h
  rw [show ("autocxxgen" : String).toList = "autocxx".toList ++ "gen".toList from rfl,
    show ("autocxx-" : String).toList = "autocxx".toList ++ "-".toList from rfl,
    List.append_assoc, List.append_assoc] at h
  have h := List.append_cancel_left h
  rw [show ("gen" : String).toList = ['g', 'e', 'n'] from rfl,
    show ("-" : String).toList = ['-'] from rfl] at h
  simp at h

theorem cxxgen_ne_cxxH (a : String) : "cxxgen" ++ a ≠ "cxx.h" := by
  intro h
  have h := congrArg String.toList h
  simp only [String.toList_append] at h
  rw [show ("cxxgen" : String).toList = ['c', 'x', 'x', 'g', 'e', 'n'] from rfl,
    show ("cxx.h" : String).toList = ['c', 'x', 'x', '.', 'h'] from rfl] at h
  simp at h

theorem cxxgen_number (i : Nat) : "cxxgen" ++ Nat.repr i ++ ".h" ≠ "cxxgen.h" := by
  intro h
  have h := congrArg String.toList h
  simp only [String.toList_append, List.append_assoc] at h
  rw [show ("cxxgen.h" : String).toList = "cxxgen".toList ++ ".h".toList from rfl] at h
  have h := List.append_cancel_left h
  have := congrArg List.length h
  simp only [List.length_append] at this
  have hne := dec_ne_nil i
  simp only [dec] at hne
  have : (Nat.repr i).toList.length = 0 := by omega
  exact hne (List.length_eq_zero_iff.1 this)

/-- Two written files with one name are one file, except that without an exact number the
autocxx header is named after the module alone. -/
theorem render_inj {ext : String} {exact : Bool} {x y : OutName}
    (h1 : exact = true → ext ≠ "h") (h2 : ext ≠ "include.rs")
    (hx : ∀ f, x = .rs f → RsNamed f) (hy : ∀ f, y = .rs f → RsNamed f)
    (h : x.render ext exact = y.render ext exact) :
    x = y ∨ ∃ i j m m', x = .autocxx i m ∧ y = .autocxx j m' ∧
      (exact = true → i = j) ∧ (exact = false → m = m') := by
  have hl : x.letter exact = y.letter exact := by
    have := render_letter ext exact x hx
    rw [h, render_letter ext exact y hy] at this
    exact (Option.some.inj this).symm
  cases exact with
  | true =>
    have h1 := h1 rfl
    cases x <;> cases y <;> simp only [OutName.letter, if_true] at hl <;>
      first
      | exact absurd hl (by decide)
      | simp only [OutName.render, if_true, dotH, dotInclude] at h
    case cc.cc i j => left; rw [(numberedFile_inj h).1]
    case cc.cxx i j => exact absurd (numberedFile_inj h).2 h1
    case cc.includeRs i j => exact absurd (numberedFile_inj h).2 h2
    case cc.archive i =>
      rw [String.append_assoc] at h; exact absurd h (gen_numbered_ne_archive i _)
    case cxx.cc i j => exact absurd (numberedFile_inj h).2.symm h1
    case cxx.cxx i j => left; rw [(numberedFile_inj h).1]
    case cxx.includeRs i j => exact absurd (numberedFile_inj h).2 (by decide)
    case cxx.archive i =>
      rw [String.append_assoc] at h; exact absurd h (gen_numbered_ne_archive i _)
    case autocxx.autocxx i m j m' =>
      exact .inr ⟨i, j, m, m', rfl, rfl, fun _ => (numberedFile_inj h).1, fun e => by cases e⟩
    case autocxx.rs i m f =>
      obtain ⟨z, rfl⟩ := hy f rfl
      simp only [String.append_assoc] at h; exact absurd h (autocxxgen_ne_rs _ _)
    case includeRs.cc i j => exact absurd (numberedFile_inj h).2.symm h2
    case includeRs.cxx i j => exact absurd (numberedFile_inj h).2 (by decide)
    case includeRs.includeRs i j => left; rw [(numberedFile_inj h).1]
    case includeRs.archive i =>
      rw [String.append_assoc] at h; exact absurd h (gen_numbered_ne_archive i _)
    case rs.autocxx f i m =>
      obtain ⟨z, rfl⟩ := hx f rfl
      simp only [String.append_assoc] at h; exact absurd h.symm (autocxxgen_ne_rs _ _)
    case rs.rs f g => left; rw [h]
    case cxxH.cxxH => exact .inl rfl
    case archive.cc i =>
      have h := h.symm
      rw [String.append_assoc] at h; exact absurd h (gen_numbered_ne_archive i _)
    case archive.cxx i =>
      have h := h.symm
      rw [String.append_assoc] at h; exact absurd h (gen_numbered_ne_archive i _)
    case archive.includeRs i =>
      have h := h.symm
      rw [String.append_assoc] at h; exact absurd h (gen_numbered_ne_archive i _)
    case archive.archive => exact .inl rfl
  | false =>
    cases x <;> cases y <;>
      simp only [OutName.letter, if_false, Bool.false_eq_true] at hl <;>
      first
      | exact absurd hl (by decide)
      | simp only [OutName.render, if_false, Bool.false_eq_true, dotInclude] at h
    case cc.cc i j => left; rw [(numberedFile_inj h).1]
    case cc.includeRs i j => exact absurd (numberedFile_inj h).2 h2
    case cc.archive i =>
      rw [String.append_assoc] at h; exact absurd h (gen_numbered_ne_archive i _)
    case cxx.cxx i j =>
      left
      by_cases hi : i = 0 <;> by_cases hj : j = 0
      · rw [hi, hj]
      · rw [if_pos hi, if_neg hj] at h; exact absurd h.symm (cxxgen_number j)
      · rw [if_neg hi, if_pos hj] at h; exact absurd h (cxxgen_number i)
      · rw [if_neg hi, if_neg hj, dotH, dotH] at h; rw [(numberedFile_inj h).1]
    case cxx.cxxH i =>
      by_cases hi : i = 0
      · rw [if_pos hi] at h; exact absurd h (by decide)
      · rw [if_neg hi, String.append_assoc] at h; exact absurd h (cxxgen_ne_cxxH _)
    case autocxx.autocxx i m j m' =>
      refine .inr ⟨i, j, m, m', rfl, rfl, fun e => (by cases e), fun _ => ?_⟩
      have h := congrArg String.toList h
      simp only [String.toList_append, List.append_assoc] at h
      exact String.toList_inj.1 (List.append_cancel_right (List.append_cancel_left h))
    case autocxx.rs i m f =>
      obtain ⟨z, rfl⟩ := hy f rfl
      rw [show ("autocxxgen_" : String) = "autocxxgen" ++ "_" from rfl] at h
      simp only [String.append_assoc] at h
      exact absurd h (autocxxgen_ne_rs _ _)
    case includeRs.cc i j => exact absurd (numberedFile_inj h).2.symm h2
    case includeRs.includeRs i j => left; rw [(numberedFile_inj h).1]
    case includeRs.archive i =>
      rw [String.append_assoc] at h; exact absurd h (gen_numbered_ne_archive i _)
    case rs.autocxx f i m =>
      obtain ⟨z, rfl⟩ := hx f rfl
      rw [show ("autocxxgen_" : String) = "autocxxgen" ++ "_" from rfl] at h
      simp only [String.append_assoc] at h
      exact absurd h.symm (autocxxgen_ne_rs _ _)
    case rs.rs f g => left; rw [h]
    case cxxH.cxx i =>
      by_cases hi : i = 0
      · rw [if_pos hi] at h; exact absurd h (by decide)
      · rw [if_neg hi, String.append_assoc] at h; exact absurd h.symm (cxxgen_ne_cxxH _)
    case cxxH.cxxH => exact .inl rfl
    case archive.cc i =>
      have h := h.symm
      rw [String.append_assoc] at h; exact absurd h (gen_numbered_ne_archive i _)
    case archive.includeRs i =>
      have h := h.symm
      rw [String.append_assoc] at h; exact absurd h (gen_numbered_ne_archive i _)
    case archive.archive => exact .inl rfl

theorem cppNames_nodup {c e a k : Nat} {bs : List Buildable} (h : e + total isEngine bs ≤ k) :
    (cppNames c e a k bs).Nodup := by
  induction bs generalizing c e a k with
  | nil => exact .nil
  | cons b r ih =>
    cases b with
    | autocxx m f rs cxx cpp =>
      simp only [total, isEngine] at h
      cases cpp with
      | none =>
        simp only [cppNames, List.nodup_cons, List.mem_cons, reduceCtorEq, false_or, cc_mem,
          cxx_mem]
        exact ⟨by omega, by omega, ih (by omega)⟩
      | some p =>
        have ha : OutName.autocxx a m ∉ cppNames (c + 2) (e + 1) (a + 1) k r := fun hm => by
          have := autocxx_mem.1 ⟨m, hm⟩
          omega
        simp only [cppNames, List.nodup_cons, List.mem_cons, reduceCtorEq, false_or, cc_mem,
          cxx_mem, OutName.cc.injEq]
        exact ⟨by omega, by omega, by omega, ha, ih (by omega)⟩
    | parseOnly f =>
      simp only [total, isEngine] at h
      exact ih (by omega)
    | bridge cxx =>
      simp only [total, isEngine] at h
      simp only [cppNames, List.nodup_cons, List.mem_cons, reduceCtorEq, false_or, cc_mem,
        cxx_mem]
      exact ⟨by omega, by omega, ih (by omega)⟩

/-- The modules of the blocks which need extra C++. -/
def extraMods (bs : List Buildable) : List String :=
  bs.filterMap fun
    | .autocxx m _ _ _ (some _) => some m
    | _ => none

theorem cppNames_mods {c e a k : Nat} {bs : List Buildable} :
    ∀ i m, OutName.autocxx i m ∈ cppNames c e a k bs → m ∈ extraMods bs := by
  induction bs generalizing c e a k with
  | nil => intro i m h; cases h
  | cons b r ih =>
    intro i m h
    cases b with
    | autocxx m' f rs cxx cpp =>
      cases cpp with
      | none =>
        simp only [cppNames, List.mem_cons, reduceCtorEq, false_or] at h
        simpa [extraMods] using ih i m h
      | some p =>
        simp only [cppNames, List.mem_cons, reduceCtorEq, false_or, OutName.autocxx.injEq] at h
        rcases h with ⟨_, rfl⟩ | h
        · simp [extraMods]
        · exact List.mem_cons_of_mem _ (ih i m h)
    | parseOnly f => simpa [extraMods] using ih i m h
    | bridge cxx =>
      simp only [cppNames, List.mem_cons, reduceCtorEq, false_or] at h
      simpa [extraMods] using ih i m h

theorem cppNames_mod_inj {c e a k : Nat} {bs : List Buildable} (hn : (extraMods bs).Nodup)
    {i j : Nat} {m : String} (hi : OutName.autocxx i m ∈ cppNames c e a k bs)
    (hj : OutName.autocxx j m ∈ cppNames c e a k bs) : i = j := by
  induction bs generalizing c e a k with
  | nil => cases hi
  | cons b r ih =>
    cases b with
    | autocxx m' f rs cxx cpp =>
      cases cpp with
      | none =>
        simp only [cppNames, List.mem_cons, reduceCtorEq, false_or] at hi hj
        exact ih (by simpa [extraMods] using hn) hi hj
      | some p =>
        simp only [cppNames, List.mem_cons, reduceCtorEq, false_or, OutName.autocxx.injEq] at hi hj
        have hn' : m' ∉ extraMods r ∧ (extraMods r).Nodup := by
          simpa [extraMods] using hn
        rcases hi with ⟨rfl, rfl⟩ | hi <;> rcases hj with ⟨rfl, h⟩ | hj
        · rfl
        · exact absurd (cppNames_mods _ _ hj) hn'.1
        · subst h; exact absurd (cppNames_mods _ _ hi) hn'.1
        · exact ih hn'.2 hi hj
    | parseOnly f => exact ih (by simpa [extraMods] using hn) hi hj
    | bridge cxx =>
      simp only [cppNames, List.mem_cons, reduceCtorEq, false_or] at hi hj
      exact ih (by simpa [extraMods] using hn) hi hj

/-- The Rust files of the blocks. -/
def rsFiles (bs : List Buildable) : List String :=
  bs.filterMap fun
    | .autocxx _ f _ _ _ => some f
    | .parseOnly f => some f
    | .bridge _ => none

theorem rsOutputs_files (n : Namers) (bs : List Buildable) :
    (rsOutputs (resolveNames n bs).1).map (·.1) = rsFiles bs := by
  induction bs generalizing n with
  | nil => rfl
  | cons b r ih =>
    cases b with
    | autocxx m f rs cxx cpp =>
      cases cpp with
      | none =>
        have := ih n.nameCxx.2
        simp only [rsOutputs, rsFiles] at this
        simp [resolveNames, resolveOne, rsOutputs, rsFiles, this]
      | some p =>
        have := ih (n.nameCxx.2.nameAutocxx m).2
        simp only [rsOutputs, rsFiles] at this
        simp [resolveNames, resolveOne, rsOutputs, rsFiles, this]
    | parseOnly f =>
      have := ih n
      simp only [rsOutputs, rsFiles] at this
      simp [resolveNames, resolveOne, rsOutputs, rsFiles, this]
    | bridge cxx =>
      have := ih n
      simp only [rsOutputs, rsFiles] at this
      simp [resolveNames, resolveOne, rsOutputs, rsFiles, this]

theorem mainNames_nodup {o : GenOptions} {bs : List Buildable}
    (hrs : o.genRsInclude = true → o.fixRsIncludeName = false → (rsFiles bs).Nodup) :
    (mainNames o bs).Nodup := by
  unfold mainNames
  have hpl : ∀ (f : Nat → OutName) (_ : ∀ i j, f i = f j → i = j) (c : Nat),
      ((upTo c o.generateExact).map f).Nodup := fun f hf c =>
    (upTo_nodup c _).map fun i j h => hf i j h
  have hlow : ∀ (c i : Nat), i ∈ upTo c o.generateExact → c ≤ i := by
    intro c i hi
    cases hx : o.generateExact with
    | none => rw [hx] at hi; cases hi
    | some n => rw [hx] at hi; exact (mem_upTo.1 hi).1
  have hcpp : ∀ x, x ∈ (if o.genCpp then
      cppNames 0 0 0 (total isEngine bs) bs ++
      ((upTo (total pairCount bs) o.generateExact).map .cc ++
        ((upTo (total isEngine bs + total isBridge bs) o.generateExact).map .cxx ++
          (upTo (total isExtra bs) o.generateExact).map fun i => OutName.autocxx i ""))
      else []) → (∃ i, x = .cc i) ∨ (∃ i, x = .cxx i) ∨ ∃ i m, x = .autocxx i m := by
    intro x hx
    split at hx
    · simp only [List.mem_append, List.mem_map] at hx
      rcases hx with hx | ⟨i, _, rfl⟩ | ⟨i, _, rfl⟩ | ⟨i, _, rfl⟩
      · exact cppNames_other hx
      · exact .inl ⟨_, rfl⟩
      · exact .inr (.inl ⟨_, rfl⟩)
      · exact .inr (.inr ⟨_, _, rfl⟩)
    · cases hx
  have hrsn : ∀ x, x ∈ (if o.genRsInclude then
        (if o.fixRsIncludeName then (List.range (total rsCount bs)).map OutName.includeRs
          else (rsOutputs (resolveNames (Namers.start o.generateExact.isSome) bs).1).map
            fun p => .rs p.1) ++
          (upTo (total rsCount bs) o.generateExact).map .includeRs
      else []) → (∃ i, x = .includeRs i) ∨ ∃ f, x = .rs f := by
    intro x hx
    split at hx
    · simp only [List.mem_append, List.mem_map] at hx
      rcases hx with hx | ⟨i, _, rfl⟩
      · split at hx
        · obtain ⟨i, _, rfl⟩ := List.mem_map.1 hx; exact .inl ⟨_, rfl⟩
        · obtain ⟨p, _, rfl⟩ := List.mem_map.1 hx; exact .inr ⟨_, rfl⟩
      · exact .inl ⟨_, rfl⟩
    · cases hx
  refine List.nodup_append'.2 ⟨?_, List.nodup_append'.2 ⟨?_, List.nodup_append'.2 ⟨?_, ?_, ?_⟩, ?_⟩, ?_⟩
  · split
    · refine List.nodup_append'.2 ⟨cppNames_nodup (by omega), List.nodup_append'.2
        ⟨hpl _ (fun i j h => by simpa using h) _, List.nodup_append'.2
          ⟨hpl _ (fun i j h => by simpa using h) _, hpl _ (fun i j h => by simpa using h) _, ?_⟩,
          ?_⟩, ?_⟩
      · intro x h1 h2
        obtain ⟨i, _, rfl⟩ := List.mem_map.1 h1
        obtain ⟨j, _, h⟩ := List.mem_map.1 h2
        cases h
      · intro x h1 h2
        obtain ⟨i, _, rfl⟩ := List.mem_map.1 h1
        rcases List.mem_append.1 h2 with h2 | h2 <;>
          · obtain ⟨j, _, h⟩ := List.mem_map.1 h2
            cases h
      · intro x h1 h2
        rcases List.mem_append.1 h2 with h2 | h2
        · obtain ⟨i, hi, rfl⟩ := List.mem_map.1 h2
          have := hlow _ _ hi
          have := cc_mem.1 h1
          omega
        · rcases List.mem_append.1 h2 with h2 | h2
          · obtain ⟨i, hi, rfl⟩ := List.mem_map.1 h2
            have := hlow _ _ hi
            have := cxx_mem.1 h1
            omega
          · obtain ⟨i, hi, rfl⟩ := List.mem_map.1 h2
            have := hlow _ _ hi
            have := autocxx_mem.1 ⟨_, h1⟩
            omega
    · exact .nil
  · split <;> simp
  · cases hg : o.genRsInclude with
    | false => exact .nil
    | true =>
      simp only [if_true]
      cases hf : o.fixRsIncludeName with
      | true =>
        simp only [if_true]
        refine List.nodup_append'.2 ⟨List.nodup_range.map fun i j h => by simpa using h,
          hpl _ (fun i j h => by simpa using h) _, ?_⟩
        intro x h1 h2
        obtain ⟨i, hi, rfl⟩ := List.mem_map.1 h1
        obtain ⟨j, hj, h⟩ := List.mem_map.1 h2
        cases h
        have := hlow _ _ hj
        have := List.mem_range.1 hi
        omega
      | false =>
        simp only [Bool.false_eq_true, if_false]
        refine List.nodup_append'.2 ⟨?_, hpl _ (fun i j h => by simpa using h) _, ?_⟩
        · have := hrs hg hf
          rw [← rsOutputs_files (Namers.start o.generateExact.isSome)] at this
          rw [show (fun p : String × String => OutName.rs p.1) = OutName.rs ∘ (·.1) from rfl,
            ← List.map_map]
          exact this.map fun a b h => by simpa using h
        · intro x h1 h2
          obtain ⟨i, hi, rfl⟩ := List.mem_map.1 h1
          obtain ⟨j, hj, h⟩ := List.mem_map.1 h2
          cases h
  · split <;> simp
  · intro x h1 h2
    split at h2
    · rw [List.mem_singleton.1 h2] at h1
      rcases hrsn _ h1 with ⟨i, h⟩ | ⟨f, h⟩ <;> cases h
    · cases h2
  · intro x h1 h2
    split at h1
    · rw [List.mem_singleton.1 h1] at h2
      rcases List.mem_append.1 h2 with h2 | h2
      · rcases hrsn _ h2 with ⟨i, h⟩ | ⟨f, h⟩ <;> cases h
      · split at h2
        · cases List.mem_singleton.1 h2
        · cases h2
    · cases h1
  · intro x h1 h2
    have hk := hcpp x h1
    rcases List.mem_append.1 h2 with h2 | h2
    · split at h2
      · rw [List.mem_singleton.1 h2] at hk; simp at hk
      · cases h2
    · rcases List.mem_append.1 h2 with h2 | h2
      · rcases hrsn _ h2 with ⟨i, rfl⟩ | ⟨f, rfl⟩ <;> simp at hk
      · split at h2
        · rw [List.mem_singleton.1 h2] at hk; simp at hk
        · cases h2

theorem cppNames_index_inj {c e a k : Nat} {bs : List Buildable} {i : Nat} {m m' : String}
    (hm : OutName.autocxx i m ∈ cppNames c e a k bs)
    (hm' : OutName.autocxx i m' ∈ cppNames c e a k bs) : m = m' := by
  induction bs generalizing c e a k with
  | nil => cases hm
  | cons b r ih =>
    cases b with
    | autocxx m0 f rs cxx cpp =>
      cases cpp with
      | none =>
        simp only [cppNames, List.mem_cons, reduceCtorEq, false_or] at hm hm'
        exact ih hm hm'
      | some p =>
        simp only [cppNames, List.mem_cons, reduceCtorEq, false_or, OutName.autocxx.injEq] at hm hm'
        rcases hm with ⟨rfl, rfl⟩ | hm <;> rcases hm' with ⟨h, rfl⟩ | hm'
        · rfl
        · have := autocxx_mem.1 ⟨_, hm'⟩
          omega
        · subst h
          have := autocxx_mem.1 ⟨_, hm⟩
          omega
        · exact ih hm hm'
    | parseOnly f => exact ih hm hm'
    | bridge cxx =>
      simp only [cppNames, List.mem_cons, reduceCtorEq, false_or] at hm hm'
      exact ih hm hm'

theorem mainNames_autocxx {o : GenOptions} {bs : List Buildable} {i : Nat} {m : String}
    (h : OutName.autocxx i m ∈ mainNames o bs) :
    OutName.autocxx i m ∈ cppNames 0 0 0 (total isEngine bs) bs ∨
      (m = "" ∧ i ∈ upTo (total isExtra bs) o.generateExact) := by
  unfold mainNames at h
  simp only [List.mem_append] at h
  rcases h with h | h | h | h
  · split at h
    · simp only [List.mem_append, List.mem_map, reduceCtorEq, and_false, exists_false, false_or,
        OutName.autocxx.injEq] at h
      rcases h with h | ⟨j, hj, rfl, rfl⟩
      · exact .inl h
      · exact .inr ⟨rfl, hj⟩
    · cases h
  · split at h
    · cases List.mem_singleton.1 h
    · cases h
  · split at h
    · rcases List.mem_append.1 h with h | h
      · split at h
        · obtain ⟨j, _, h⟩ := List.mem_map.1 h; cases h
        · obtain ⟨j, _, h⟩ := List.mem_map.1 h; cases h
      · obtain ⟨j, _, h⟩ := List.mem_map.1 h; cases h
    · cases h
  · split at h
    · cases List.mem_singleton.1 h
    · cases h

theorem mainNames_rs {o : GenOptions} {bs : List Buildable} {f : String}
    (h : OutName.rs f ∈ mainNames o bs) :
    o.genRsInclude = true ∧ o.fixRsIncludeName = false ∧ f ∈ rsFiles bs := by
  unfold mainNames at h
  simp only [List.mem_append] at h
  rcases h with h | h | h | h
  · split at h
    · simp only [List.mem_append, List.mem_map, reduceCtorEq, and_false, exists_false, or_false] at h
      rcases cppNames_other h with ⟨i, h⟩ | ⟨i, h⟩ | ⟨i, m, h⟩ <;> cases h
    · cases h
  · split at h
    · cases List.mem_singleton.1 h
    · cases h
  · cases hg : o.genRsInclude with
    | false => rw [hg] at h; cases h
    | true =>
      rw [hg, if_pos rfl] at h
      refine ⟨rfl, ?_⟩
      rcases List.mem_append.1 h with h | h
      · cases hf : o.fixRsIncludeName with
        | true => rw [hf, if_pos rfl] at h; obtain ⟨j, _, h⟩ := List.mem_map.1 h; cases h
        | false =>
          rw [hf] at h
          obtain ⟨p, hp, h⟩ := List.mem_map.1 h
          cases h
          refine ⟨rfl, ?_⟩
          rw [← rsOutputs_files (Namers.start o.generateExact.isSome) bs]
          exact List.mem_map_of_mem hp
      · obtain ⟨j, _, h⟩ := List.mem_map.1 h; cases h
  · split at h
    · cases List.mem_singleton.1 h
    · cases h

/-- C34: no two files of a run share a name. Without an exact number this needs the modules of the
blocks to differ, which is checked for each input file by itself; and the file extension of C++
must not make an implementation file look like a header or a Rust file. -/
theorem main_nodup {o : GenOptions} {cxxH archive : String} {bs : List Buildable}
    (hnf : NoFail (mainActions o cxxH archive bs))
    (h1 : o.generateExact.isSome = true → o.cppExtension ≠ "h")
    (h2 : o.cppExtension ≠ "include.rs")
    (hmods : o.generateExact = none → (extraMods bs).Nodup)
    (hrs : (rsFiles bs).Nodup) (hnamed : ∀ f ∈ rsFiles bs, RsNamed f) :
    (actionNames (mainActions o cxxH archive bs)).Nodup := by
  rw [main_names hnf]
  refine List.Nodup.map_on ?_ (mainNames_nodup fun _ _ => hrs)
  intro x hx y hy h
  have hn : ∀ z ∈ mainNames o bs, ∀ f, z = .rs f → RsNamed f := by
    intro z hz f e
    subst e
    exact hnamed f (mainNames_rs hz).2.2
  rcases render_inj h1 h2 (hn x hx) (hn y hy) h with h | ⟨i, j, m, m', rfl, rfl, he, hd⟩
  · exact h
  · cases hx' : o.generateExact with
    | none =>
      rw [hx'] at he hd
      have hm := hd rfl
      subst hm
      rcases mainNames_autocxx hx with hx | ⟨_, hx⟩
      · rcases mainNames_autocxx hy with hy | ⟨_, hy⟩
        · rw [cppNames_mod_inj (hmods hx') hx hy]
        · rw [hx'] at hy; cases hy
      · rw [hx'] at hx; cases hx
    | some n =>
      rw [hx'] at he hd
      have hi := he rfl
      subst hi
      rcases mainNames_autocxx hx with hx | ⟨e, hx⟩ <;>
        rcases mainNames_autocxx hy with hy | ⟨e', hy⟩
      · rw [cppNames_index_inj hx hy]
      · rw [hx', mem_upTo] at hy
        have := autocxx_mem.1 ⟨_, hx⟩
        omega
      · rw [hx', mem_upTo] at hx
        have := autocxx_mem.1 ⟨_, hy⟩
        omega
      · rw [e, e']

/-- C32: with a working operating system, asking for exactly `n` files succeeds exactly when C++
can be made from every block and no kind of file is needed more than `n` times. -/
theorem exact_succeeds_iff {o : GenOptions} {cxxH archive : String} {bs : List Buildable} {n : Nat}
    {io : Nat → Io} {rel : String → Option String} (files : Files) {dep : Option Depfile}
    (hx : o.generateExact = some n) (hio : ∀ k, io k = Io.works)
    (hrel : dep = none ∨ ∀ n ∈ actionNames (mainActions o cxxH archive bs), (rel n).isSome)
    (h1 : o.cppExtension ≠ "h") (h2 : o.cppExtension ≠ "include.rs")
    (hrs : (rsFiles bs).Nodup) (hnamed : ∀ f ∈ rsFiles bs, RsNamed f) :
    (runActions io rel (Writer.start files dep) (mainActions o cxxH archive bs)).2 = none ↔
      (o.genCpp = true → (∀ b ∈ bs, HasCpp b) ∧ total pairCount bs ≤ n) ∧
      (o.genRsInclude = true → o.fixRsIncludeName = true ∧ total rsCount bs ≤ n) := by
  rw [← counts_noFail (cxxH := cxxH) (archive := archive) hx]
  constructor
  · intro h
    exact runActions_noFail (w' := (runActions io rel (Writer.start files dep)
      (mainActions o cxxH archive bs)).1) (by rw [← h])
  · intro hnf
    refine consistent_ok hio hrel hnf (consistent_of_nodup ?_)
    exact main_nodup hnf (fun _ => h1) h2 (fun e => by rw [hx] at e; cases e) hrs hnamed

/-! ## The names the configuration gives -/

/-- The Rust file of a block is named as the other theorems want it. -/
theorem rsFilename_named (c : Config) : RsNamed c.rsFilename :=
  ⟨c.modName.getD "ffi-default" ++ "-gen.rs", by rw [Config.rsFilename, String.append_assoc]⟩

/-- C34: blocks for different modules have different Rust files. -/
theorem rsFilename_inj {c c' : Config}
    (h : ∀ m, c.modName = some m → '-' ∉ m.toList) (h' : ∀ m, c'.modName = some m → '-' ∉ m.toList)
    (he : c.rsFilename = c'.rsFilename) : c.getModName = c'.getModName := by
  unfold Config.rsFilename at he
  have he := congrArg String.toList he
  simp only [String.toList_append, List.append_assoc] at he
  have he := List.append_cancel_left he
  have he := List.append_cancel_right he
  have he := String.toList_injective he
  unfold Config.getModName
  cases hm : c.modName with
  | none =>
    cases hm' : c'.modName with
    | none => rfl
    | some m' =>
      rw [hm, hm'] at he
      refine absurd ?_ (h' m' hm')
      simp only [Option.getD_none, Option.getD_some] at he
      rw [← he]; decide
  | some m =>
    cases hm' : c'.modName with
    | none =>
      rw [hm, hm'] at he
      refine absurd ?_ (h m hm)
      simp only [Option.getD_none, Option.getD_some] at he
      rw [he]; decide
    | some m' =>
      rw [hm, hm'] at he
      exact he

/-! ## The builder -/

/-- How the builder calls the files. -/
def OutName.builderName : OutName → String
  | .cc i => "cxx/gen" ++ Nat.repr i ++ ".cxx"
  | .rs f => "rs/" ++ f
  | x => "include/" ++ x.render "cxx" false

theorem builder_autocxx_index (c e a a' k : Nat) (bs : List Buildable) :
    (cppNames c e a k bs).map OutName.builderName =
      (cppNames c e a' k bs).map OutName.builderName := by
  induction bs generalizing c e a a' k with
  | nil => rfl
  | cons b r ih =>
    cases b with
    | autocxx m f rs cxx cpp =>
      cases cpp with
      | none => simp only [cppNames, List.map_cons]; rw [ih]
      | some p =>
        simp only [cppNames, List.map_cons]
        rw [ih (c + 2) (e + 1) (a + 1) (a' + 1) k]
        rfl
    | parseOnly f => exact ih c e a a' k
    | bridge cxx => simp only [cppNames, List.map_cons]; rw [ih]

theorem builderCpp_names (c k : Nat) (n n' : Namers) (bs : List Buildable)
    (hex : n.exact = false) (hex' : n'.exact = false) (hk : n'.cxx = k)
    {l : List (String × String)} (h : builderCpp c n' (resolveNames n bs).1 = some l) :
    (l.map (·.1)).Sublist ((cppNames c n.cxx n.autocxx k bs).map OutName.builderName) ∧
      ∀ b ∈ bs, HasCpp b := by
  induction bs generalizing c n n' k l with
  | nil =>
    simp only [resolveNames, builderCpp, Option.some.injEq] at h
    subst h
    exact ⟨.slnil, fun b hb => by cases hb⟩
  | cons b r ih =>
    cases b with
    | autocxx m f rs cxx cpp =>
      cases cpp with
      | none =>
        simp only [resolveNames, resolveOne] at h
        cases cxx with
        | none => cases h
        | some p =>
          obtain ⟨hdr, impl⟩ := p
          simp only [builderCpp, generateHAndCxx, Option.toList, List.length_singleton,
            builderPairs, Option.map_eq_some_iff] at h
          obtain ⟨rest, hr, rfl⟩ := h
          obtain ⟨h1, h2⟩ := ih (c + 1) k n.nameCxx.2 n' (by simpa [Namers.nameCxx]) hex' hk hr
          refine ⟨?_, ?_⟩
          · simp only [List.map_cons, cppNames, List.cons_append, List.nil_append]
            refine List.Sublist.cons_cons _ ?_
            rw [show OutName.builderName (.cxx n.cxx) = "include/" ++ n.nameCxx.1 by
              simp [OutName.builderName, OutName.render, Namers.nameCxx, hex]]
            exact h1.cons_cons _
          · intro b hb
            rcases List.mem_cons.1 hb with rfl | hb
            · simp [HasCpp]
            · exact h2 b hb
      | some p2 =>
        obtain ⟨ah, ai⟩ := p2
        simp only [resolveNames, resolveOne] at h
        cases cxx with
        | none => cases h
        | some p =>
          obtain ⟨hdr, impl⟩ := p
          simp only [builderCpp, generateHAndCxx, Option.toList, List.length_cons,
            List.length_nil, builderPairs, Option.map_eq_some_iff] at h
          obtain ⟨rest, hr, rfl⟩ := h
          obtain ⟨h1, h2⟩ := ih (c + (0 + 1 + 1)) k (n.nameCxx.2.nameAutocxx m).2 n'
            (by simp [Namers.nameCxx, Namers.nameAutocxx, hex]) hex' hk hr
          refine ⟨?_, ?_⟩
          · have h1' : (rest.map (·.1)).Sublist
                ((cppNames (c + 2) (n.cxx + 1) (n.autocxx + 1) k r).map OutName.builderName) := by
              rw [builder_autocxx_index _ _ (n.autocxx + 1) n.autocxx]
              simpa [Namers.nameCxx, Namers.nameAutocxx, hex] using h1
            have e1 : OutName.builderName (.cxx n.cxx) = "include/" ++ n.nameCxx.1 := by
              simp [OutName.builderName, OutName.render, Namers.nameCxx, hex]
            have e2 : OutName.builderName (.autocxx n.autocxx m) =
                "include/" ++ (n.nameCxx.2.nameAutocxx m).1 := by
              simp [OutName.builderName, OutName.render, Namers.nameCxx, Namers.nameAutocxx, hex]
            simp only [List.map_append, List.map_cons, List.map_nil, cppNames, List.cons_append,
              List.nil_append, e1, e2]
            refine List.Sublist.cons_cons _ (List.Sublist.cons_cons _ ?_)
            cases ai with
            | none => exact (h1'.cons_cons _).cons _
            | some ai => exact (h1'.cons_cons _).cons_cons _
          · intro b hb
            rcases List.mem_cons.1 hb with rfl | hb
            · simp [HasCpp]
            · exact h2 b hb
    | parseOnly f => cases h
    | bridge cxx =>
      simp only [resolveNames, resolveOne] at h
      cases cxx with
      | none => cases h
      | some p =>
        obtain ⟨hdr, impl⟩ := p
        simp only [builderCpp, generateHAndCxx, List.length_singleton, builderPairs,
          Option.map_eq_some_iff] at h
        obtain ⟨rest, hr, rfl⟩ := h
        obtain ⟨h1, h2⟩ := ih (c + 1) (k + 1) n n'.nameCxx.2 hex (by simpa [Namers.nameCxx])
          (by simp [Namers.nameCxx, hk]) hr
        refine ⟨?_, ?_⟩
        · simp only [List.map_cons, cppNames, List.cons_append, List.nil_append]
          refine List.Sublist.cons_cons _ ?_
          rw [show OutName.builderName (.cxx k) = "include/" ++ n'.nameCxx.1 by
            simp [OutName.builderName, OutName.render, Namers.nameCxx, hex', hk]]
          exact h1.cons_cons _
        · intro b hb
          rcases List.mem_cons.1 hb with rfl | hb
          · simp [HasCpp]
          · exact h2 b hb

/-- The first letter of a name. -/
def OutName.builderLetter : OutName → Char
  | .cc _ => 'c'
  | .rs _ => 'r'
  | _ => 'i'

theorem builderName_letter (x : OutName) :
    x.builderName.toList.head? = some x.builderLetter := by
  have : ∀ (a : Char) (l : List Char) (s : String), (String.ofList (a :: l) ++ s).toList.head? =
      some a := fun a l s => by simp
  cases x <;> simp only [OutName.builderName, OutName.builderLetter]
  case cc i =>
    rw [String.append_assoc]
    exact this 'c' ['x', 'x', '/', 'g', 'e', 'n'] _
  case rs f => exact this 'r' ['s', '/'] _
  all_goals exact this 'i' ['n', 'c', 'l', 'u', 'd', 'e', '/'] _

theorem prefix_inj {p a b : String} (h : p ++ a = p ++ b) : a = b := by
  have h := congrArg String.toList h
  simp only [String.toList_append] at h
  exact String.toList_injective (List.append_cancel_left h)

theorem builderName_inj {x y : OutName} (h : x.builderName = y.builderName) :
    x = y ∨ ∃ i j m, x = .autocxx i m ∧ y = .autocxx j m := by
  have hl : x.builderLetter = y.builderLetter := by
    have := builderName_letter x
    rw [h, builderName_letter y] at this
    exact (Option.some.inj this).symm
  have key : ∀ x y : OutName, x.builderLetter = 'i' → y.builderLetter = 'i' →
      x.render "cxx" false = y.render "cxx" false →
      x = y ∨ ∃ i j m, x = .autocxx i m ∧ y = .autocxx j m := by
    intro x y hx hy h
    have hn : ∀ x : OutName, x.builderLetter = 'i' → ∀ f, x = .rs f → RsNamed f := by
      intro x hx f e
      subst e
      simp [OutName.builderLetter] at hx
    rcases render_inj (by simp) (by decide) (hn x hx) (hn y hy) h with
      h | ⟨i, j, m, m', hx, hy, _, e⟩
    · exact .inl h
    · cases e rfl
      exact .inr ⟨i, j, m, hx, hy⟩
  cases x <;> cases y <;> simp only [OutName.builderLetter] at hl <;>
    first
    | exact absurd hl (by decide)
    | exact key _ _ rfl rfl (prefix_inj h)
    | skip
  case cc.cc i j =>
    simp only [OutName.builderName] at h
    have e : ∀ i : Nat, "cxx/gen" ++ Nat.repr i ++ ".cxx" = "cxx/gen" ++ Nat.repr i ++ "." ++ "cxx" :=
      fun i => by rw [String.append_assoc (s₂ := ".")]; rfl
    rw [e, e] at h
    exact .inl (by rw [(numberedFile_inj h).1])
  case rs.rs f g => exact .inl (by rw [prefix_inj h])

/-- Everything the builder may write. -/
def builderNames (bs : List Buildable) : List OutName :=
  .cxxH :: (cppNames 0 0 0 (total isEngine bs) bs ++ (rsFiles bs).map .rs)

/-- C34: no two files the builder writes have the same path, if the modules of the blocks and their
Rust files differ. -/
theorem builder_nodup {cxxH : String} {bs : List Buildable} {l : List (String × String)}
    (h : builderFiles cxxH bs = some l) (hmods : (extraMods bs).Nodup)
    (hrs : (rsFiles bs).Nodup) : (l.map (·.1)).Nodup ∧ ∀ b ∈ bs, HasCpp b := by
  unfold builderFiles at h
  obtain ⟨cpp, hc, rfl⟩ := Option.map_eq_some_iff.1 h
  obtain ⟨hr1, hr2, hr3⟩ := resolveNames_counts (Namers.start false) bs
  obtain ⟨hs, hh⟩ := builderCpp_names 0 (total isEngine bs) (Namers.start false) _ bs rfl
    (by rw [hr1]; rfl) (by rw [hr2]; simp [Namers.start]) hc
  refine ⟨?_, hh⟩
  have hnd : ((builderNames bs).map OutName.builderName).Nodup := by
    refine List.Nodup.map_on ?_ ?_
    · intro x hx y hy h
      rcases builderName_inj h with h | ⟨i, j, m, rfl, rfl⟩
      · exact h
      · simp only [builderNames, List.mem_cons, reduceCtorEq, List.mem_append, List.mem_map,
          and_false, exists_false, or_false, false_or] at hx hy
        rw [cppNames_mod_inj hmods hx hy]
    · refine List.nodup_cons.2 ⟨?_, List.nodup_append'.2 ⟨cppNames_nodup (by omega),
        hrs.map fun a b h => by simpa using h, ?_⟩⟩
      · simp only [List.mem_append, List.mem_map, reduceCtorEq, and_false, exists_false, or_false]
        intro h
        rcases cppNames_other h with ⟨i, h⟩ | ⟨i, h⟩ | ⟨i, m, h⟩ <;> cases h
      · intro x hx hx'
        obtain ⟨f, _, rfl⟩ := List.mem_map.1 hx'
        rcases cppNames_other hx with ⟨i, h⟩ | ⟨i, h⟩ | ⟨i, m, h⟩ <;> cases h
  refine List.Sublist.nodup ?_ hnd
  simp only [builderNames, List.map_cons, List.map_append, List.map_map]
  refine List.Sublist.cons_cons _ (hs.append ?_)
  rw [← rsOutputs_files (Namers.start false) bs, List.map_map]
  exact List.Sublist.refl _

/-- C36: building again what has been built touches nothing, when the modules of the blocks and
their Rust files differ. -/
theorem builder_rebuild {cxxH : String} {bs : List Buildable} {l : List (String × String)}
    {io io' : Nat → Io} {f f' : Files} {t' : List String}
    (hl : builderFiles cxxH bs = some l) (hmods : (extraMods bs).Nodup) (hrs : (rsFiles bs).Nodup)
    (h : builderWrites io 0 f [] l = (f', t', true)) (hio : ∀ k, io' k = Io.works) :
    builderWrites io' 0 f' [] l = (f', [], true) :=
  builder_rerun h (builder_nodup hl hmods hrs).1 hio

/-! ## Witnesses and examples -/

/-- A block of module `ffi` with extra C++ (whose header is `text`) in the first or second input
file. -/
def exBlock (text : String) : Buildable :=
  .autocxx "ffi" "autocxx-ffi-default-gen.rs" "mod ffi {}" (some ("// cxx", "// cxx cc"))
    (some (text, some "// cc"))

/-- Only C++ is wanted. -/
def exOptions : GenOptions :=
  { genCpp := true, cppExtension := "cc", genRsInclude := false, genRsArchive := false,
    generateExact := none, fixRsIncludeName := false, generateCxxH := false }

/-- Everything works, nothing is recorded in a depfile. -/
def exRun (files : Files) (acts : List Action) : Writer × Option MainErr :=
  runActions (fun _ => Io.works) some (Writer.start files none) acts

/-- C35 is false: two input files have blocks for the module `ffi`, whose headers differ. The
directory holds the output of an earlier run for the first file alone, so writing its header again
goes unnoticed, and the header of the second file replaces it without complaint. -/
theorem conflict_false :
    let first := exRun (fun _ => none) (mainActions exOptions "" "" [exBlock "// one"])
    let both := mainActions exOptions "" "" [exBlock "// one", exBlock "// two"]
    let second := exRun first.1.files both
    contentsFor "autocxxgen_ffi.h" both = ["// one", "// two"] ∧
      first.2 = none ∧ second.2 = none ∧
      first.1.files "autocxxgen_ffi.h" = some "// one" ∧
      second.1.files "autocxxgen_ffi.h" = some "// two" := by
  decide +kernel

/-- The same run into an empty directory is refused, but only once the header of the second file
has replaced that of the first. -/
theorem conflict_after_overwriting_witness :
    let both := mainActions exOptions "" "" [exBlock "// one", exBlock "// two"]
    let run := exRun (fun _ => none) both
    run.2 = some (.conflict "autocxxgen_ffi.h") ∧
      run.1.files "autocxxgen_ffi.h" = some "// two" := by
  decide +kernel

/-- C34, C35: an implementation file and a header share a name when an exact number of files is
asked for with the extension `h`. -/
theorem extension_clash_witness :
    let o := { exOptions with generateExact := some 2, cppExtension := "h" }
    (exRun (fun _ => none) (mainActions o "" "" [exBlock "// one"])).2 =
      some (.conflict "gen0.h") := by
  decide +kernel

/-- `exact_outputs` and `exact_succeeds_iff` are about runs like this one: two blocks and a bridge
make five C++ files, and six are asked for. -/
example :
    let o : GenOptions := ⟨true, "cc", true, true, some 6, true, true⟩
    let bs := [exBlock "// one", .bridge (some ("// bridge", "// bridge cc")), exBlock "// two"]
    let run := exRun (fun _ => none) (mainActions o "// cxx.h" "{}" bs)
    run.2 = none ∧ run.1.touched.length = 26 ∧
      run.1.files "gen5.cc" = some blank ∧ run.1.files "autocxxgen1.h" = some "// two" ∧
      run.1.files "gen2.h" = some "// bridge" ∧ run.1.files "gen1.include.rs" = some "mod ffi {}" ∧
      (exRun run.1.files (mainActions o "// cxx.h" "{}" bs)).1.touched = [] := by
  decide +kernel

/-- One more C++ file than asked for. -/
example :
    let o := { exOptions with generateExact := some 1 }
    (exRun (fun _ => none) (mainActions o "" "" [exBlock "// one"])).2 = some (.tooMany 2) := by
  decide +kernel

/-- A parse-only block stops the generation of C++. -/
example : (exRun (fun _ => none) (mainActions exOptions "" "" [.parseOnly "autocxx-a-gen.rs"])).2 =
    some .parseOnly := by
  decide +kernel

/-- `main_nodup` and `builder_nodup` are about blocks like these. -/
def exTwoBlocks : List Buildable :=
  [exBlock "// one", .autocxx "other" "autocxx-other-gen.rs" "mod other {}"
    (some ("// cxx", "// cxx cc")) (some ("// two", none)),
    .bridge (some ("// bridge", "// bridge cc"))]

example : (extraMods exTwoBlocks).Nodup ∧ (rsFiles exTwoBlocks).Nodup ∧
    (builderFiles "// cxx.h" exTwoBlocks).map (·.map (·.1)) =
      some ["include/cxx.h", "cxx/gen0.cxx", "include/cxxgen.h", "cxx/gen1.cxx",
        "include/autocxxgen_ffi.h", "cxx/gen2.cxx", "include/cxxgen1.h",
        "include/autocxxgen_other.h", "cxx/gen4.cxx", "include/cxxgen2.h",
        "rs/autocxx-ffi-default-gen.rs", "rs/autocxx-other-gen.rs"] := by
  decide +kernel

end Verif
