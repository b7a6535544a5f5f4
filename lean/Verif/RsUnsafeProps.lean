import Verif.TrackersProps
import Verif.RsCallProps
import Verif.RsFnProps
import Verif.LifetimeProps
import Verif.FnMoreProps

/-!
# Where generated Rust code is `unsafe`

Whatever may only be done in `unsafe` code is only done there, and no `unsafe` block is there for nothing.
-/

set_option autoImplicit false

namespace Verif

/-! ## Specification -/

mutual
/-- Whether code does something which is only allowed in `unsafe` code, outside of any `unsafe` block it has itself.
`get_unchecked_mut`, `into_inner_unchecked`, `new_unchecked`, `populate` and `by_raw` are `unsafe`, and so may be the
function of the bridge. -/
def Rs.exposed (bridgeUnsafe : Bool) : Rs → Bool
  | .var _ | .getPtr _ | .letHandler _ _ | .unsafeBlock _ => false
  | .intoCpp e | .boxHolder _ e | .fromPtr _ e | .asPtr _ e => e.exposed bridgeUnsafe
  | .uninitPtr _ | .moveRefInner _ | .byRaw _ _ | .populate _ _ => true
  | .call _ args => bridgeUnsafe || Rs.anyExposed bridgeUnsafe args
  | .letPin _ own | .letPlace _ own => !own
/-- The same for some of several. -/
def Rs.anyExposed (bridgeUnsafe : Bool) : List Rs → Bool
  | [] => false
  | e :: l => e.exposed bridgeUnsafe || Rs.anyExposed bridgeUnsafe l
end

mutual
/-- Whether no `unsafe` block in the code is there for nothing: none is where code is `unsafe` already (`ctx`), and each
has in it something which needs it. -/
def Rs.noIdleBlock (bridgeUnsafe ctx : Bool) : Rs → Bool
  | .var _ | .getPtr _ | .letHandler _ _ => true
  | .intoCpp e | .boxHolder _ e | .fromPtr _ e | .asPtr _ e | .uninitPtr e | .moveRefInner e | .populate _ e =>
    e.noIdleBlock bridgeUnsafe ctx
  | .call _ args => Rs.allNoIdleBlock bridgeUnsafe ctx args
  | .byRaw _ body => Rs.allNoIdleBlock bridgeUnsafe ctx body
  | .unsafeBlock body => !ctx && Rs.anyExposed bridgeUnsafe body && Rs.allNoIdleBlock bridgeUnsafe true body
  | .letPin _ own | .letPlace _ own => !(own && ctx)
/-- The same for all of several. -/
def Rs.allNoIdleBlock (bridgeUnsafe ctx : Bool) : List Rs → Bool
  | [] => true
  | e :: l => e.noIdleBlock bridgeUnsafe ctx && Rs.allNoIdleBlock bridgeUnsafe ctx l
end

/-! ## Statements -/

theorem anyExposed_iff {b : Bool} {l : List Rs} : Rs.anyExposed b l = true ↔ ∃ e ∈ l, e.exposed b = true := by
  induction l with
  | nil => simp [Rs.anyExposed]
  | cons e l ih => simp [Rs.anyExposed, ih]

theorem allNoIdleBlock_iff {b c : Bool} {l : List Rs} :
    Rs.allNoIdleBlock b c l = true ↔ ∀ e ∈ l, e.noIdleBlock b c = true := by
  induction l with
  | nil => simp [Rs.allNoIdleBlock]
  | cons e l ih => simp [Rs.allNoIdleBlock, ih]

/-- A statement is right about what it needs. -/
def StmtSafe (b : Bool) : MaybeUnsafe Rs → Prop
  | .normal x | .binary x _ => x.exposed b = false
  | .needsUnsafe _ => True

/-- A statement has no needless block wherever it is put. -/
def StmtTidy (b ctx : Bool) : MaybeUnsafe Rs → Prop
  | .normal x => x.noIdleBlock b ctx = true
  | .binary x y => x.noIdleBlock b false = true ∧ y.noIdleBlock b true = true
  | .needsUnsafe x => x.exposed b = true ∧ x.noIdleBlock b true = true

theorem tokens_safe {b : Bool} {items : List (MaybeUnsafe Rs)} (h : ∀ i ∈ items, StmtSafe b i) :
    ∀ s ∈ fragsToRs (maybeUnsafesToTokens items false), s.exposed b = false := by
  intro s hs
  obtain ⟨f, hf, rfl⟩ := List.mem_map.1 hs
  cases f with
  | block l => rfl
  | plain x =>
    have : (false, x) ∈ (maybeUnsafesToTokens items false).flatMap Frag.tagged :=
      List.mem_flatMap.2 ⟨_, hf, by simp [Frag.tagged]⟩
    rw [(safe_context items).1] at this
    obtain ⟨i, hi, he⟩ := List.mem_map.1 this
    have := h i hi
    cases i with
    | normal y => cases he; exact this
    | binary y z => cases he; exact this
    | needsUnsafe y => cases he

theorem tokens_tidy {b ctx : Bool} {items : List (MaybeUnsafe Rs)} (h : ∀ i ∈ items, StmtTidy b ctx i) :
    ∀ s ∈ fragsToRs (maybeUnsafesToTokens items ctx), s.noIdleBlock b ctx = true := by
  intro s hs
  obtain ⟨f, hf, rfl⟩ := List.mem_map.1 hs
  cases ctx with
  | true =>
    rw [maybeUnsafesToTokens, if_pos rfl] at hf
    obtain ⟨i, hi, rfl⟩ := List.mem_map.1 hf
    have := h i hi
    cases i with
    | normal y => exact this
    | binary y z => exact this.2
    | needsUnsafe y => exact this.2
  | false =>
    have htag : ∀ t ∈ f.tagged, ∃ i ∈ items, i.wantedSafe = t := by
      intro t ht
      have : t ∈ (maybeUnsafesToTokens items false).flatMap Frag.tagged := List.mem_flatMap.2 ⟨_, hf, ht⟩
      rw [(safe_context items).1] at this
      exact List.mem_map.1 this
    cases f with
    | plain x =>
      obtain ⟨i, hi, he⟩ := htag (false, x) (by simp [Frag.tagged])
      have := h i hi
      cases i with
      | normal y => cases he; exact this
      | binary y z => cases he; exact this.1
      | needsUnsafe y => cases he
    | block l =>
      have hin : ∀ x ∈ l, x.exposed b = true ∧ x.noIdleBlock b true = true := by
        intro x hx
        obtain ⟨i, hi, he⟩ := htag (true, x) (by simpa [Frag.tagged] using hx)
        have := h i hi
        cases i with
        | normal y => cases he
        | binary y z => cases he
        | needsUnsafe y => cases he; exact this
      have hne : l ≠ [] := by
        rintro rfl
        have ht := (safe_context items).2
        revert hf
        generalize maybeUnsafesToTokens items false = out at ht
        induction ht with
        | nil => simp
        | plain _ ih => simpa using ih
        | last => simp
        | block _ ih => simpa using ih
      show Rs.noIdleBlock b false (.unsafeBlock l) = true
      rw [Rs.noIdleBlock, Bool.and_eq_true, Bool.and_eq_true]
      refine ⟨⟨rfl, ?_⟩, allNoIdleBlock_iff.2 fun x hx => (hin x hx).2⟩
      obtain ⟨x, hx⟩ := List.exists_mem_of_ne_nil l hne
      exact anyExposed_iff.2 ⟨x, hx, (hin x hx).1⟩

/-! ## Conversions -/

/-- What converting an argument or a result adds. -/
theorem rustConvert_unsafe {p : TypeConversionPolicy} {x : Rs} {c c' : Nat} {ty : RTy} {locals : List (MaybeUnsafe Rs)}
    {e : Rs} {u : Bool} (b : Bool) (h : p.rustConvert x c = some (.param ty locals e u, c')) :
    (u = false → e.exposed b = true → x.exposed b = true) ∧ (u = true → e.exposed b = true) ∧
      (∀ ctx, x.noIdleBlock b ctx = true → e.noIdleBlock b ctx = true) ∧
      (∀ i ∈ locals, StmtSafe b i ∧ ∀ ctx, (∀ ctx', x.noIdleBlock b ctx' = true) → StmtTidy b ctx i) := by
  have hslot : ∀ (rv : Bool) (s : Ident) (i : MaybeUnsafe Rs),
      i ∈ ([.normal (.letHandler s rv), .binary (.letPin s true) (.letPin s false), .needsUnsafe (.populate s x)] :
        List (MaybeUnsafe Rs)) →
      StmtSafe b i ∧ ∀ ctx, (∀ ctx', x.noIdleBlock b ctx' = true) → StmtTidy b ctx i := by
    intro rv s i hi
    simp only [List.mem_cons, List.not_mem_nil, or_false] at hi
    rcases hi with rfl | rfl | rfl
    · exact ⟨by simp [StmtSafe, Rs.exposed], fun ctx _ => by simp [StmtTidy, Rs.noIdleBlock]⟩
    · exact ⟨by simp [StmtSafe, Rs.exposed], fun ctx _ => by simp [StmtTidy, Rs.noIdleBlock]⟩
    · exact ⟨trivial, fun ctx hx => by simp [StmtTidy, Rs.noIdleBlock, Rs.exposed, hx]⟩
  have hnone : ∀ i ∈ ([] : List (MaybeUnsafe Rs)),
      StmtSafe b i ∧ ∀ ctx, (∀ ctx', x.noIdleBlock b ctx' = true) → StmtTidy b ctx i := fun i hi => by cases hi
  rw [TypeConversionPolicy.rustConvert] at h
  split at h
  all_goals first
    | (cases h
       first
         | exact ⟨by simp [Rs.exposed], by simp [Rs.exposed], by simp [Rs.noIdleBlock], hnone⟩
         | exact ⟨by simp [Rs.exposed], by simp [Rs.exposed], by simp [Rs.noIdleBlock], hslot _ _⟩)
    | (obtain ⟨⟨m, t⟩, _, h⟩ := Option.map_eq_some_iff.1 h
       cases h
       all_goals exact ⟨by simp [Rs.exposed], by simp [Rs.exposed], by simp [Rs.noIdleBlock], hnone⟩)

/-- What is known about the pieces made so far. -/
structure PartsSafe (b : Bool) (s : PartsState) : Prop where
  conv : s.unsafeConversion = Rs.anyExposed b s.args
  args : ∀ ctx, Rs.allNoIdleBlock b ctx s.args = true
  locals : ∀ i ∈ s.locals, StmtSafe b i ∧ ∀ ctx, StmtTidy b ctx i

theorem anyExposed_snoc {b : Bool} {l : List Rs} {e : Rs} :
    Rs.anyExposed b (l ++ [e]) = (e.exposed b || Rs.anyExposed b l) := by
  induction l with
  | nil => simp [Rs.anyExposed]
  | cons a l ih =>
    rw [List.cons_append, Rs.anyExposed, ih, Rs.anyExposed]
    cases a.exposed b <;> cases e.exposed b <;> simp

theorem partsStep_safe {b avoidSelf : Bool} {s s' : PartsState} {pd : ArgumentAnalysis} (h : PartsSafe b s)
    (hs : partsStep avoidSelf s pd = some s') : PartsSafe b s' := by
  have hvar : ∀ (x : Ident) ctx, (Rs.var x).noIdleBlock b ctx = true := fun _ _ => by rw [Rs.noIdleBlock]
  have hall : ∀ e : Rs, (∀ ctx, e.noIdleBlock b ctx = true) → ∀ ctx, Rs.allNoIdleBlock b ctx (s.args ++ [e]) = true := by
    intro e he ctx
    refine allNoIdleBlock_iff.2 fun a ha => ?_
    rcases List.mem_append.1 ha with ha | ha
    · exact allNoIdleBlock_iff.1 (h.args ctx) a ha
    · rw [List.mem_singleton.1 ha]; exact he ctx
  rw [partsStep] at hs
  split at hs
  · cases hs
  · rename_i ty locals e u c hc
    cases hs
    obtain ⟨h1, h2, h3, h4⟩ := rustConvert_unsafe b hc
    refine ⟨?_, hall e fun ctx => h3 ctx (hvar _ ctx), fun i hi => ?_⟩
    · dsimp only
      rw [anyExposed_snoc, h.conv]
      congr 1
      cases u with
      | true => exact (h2 rfl).symm
      | false =>
        cases he : e.exposed b with
        | false => rfl
        | true => have := h1 rfl he; simp [Rs.exposed] at this
    · rcases List.mem_append.1 hi with hi | hi
      · exact h.locals i hi
      · exact ⟨(h4 i hi).1, fun ctx => (h4 i hi).2 ctx (hvar _)⟩
  · cases hs
    refine ⟨?_, hall _ (hvar _), h.locals⟩
    dsimp only
    rw [anyExposed_snoc, h.conv, Rs.exposed, Bool.false_or]

theorem partsLoop_safe {b avoidSelf : Bool} {ds : List ArgumentAnalysis} : ∀ {s s' : PartsState}, PartsSafe b s →
    partsLoop avoidSelf s ds = some s' → PartsSafe b s' := by
  induction ds with
  | nil => intro s s' h hs; cases hs; exact h
  | cons pd ds ih =>
    intro s s' h hs
    rw [partsLoop] at hs
    obtain ⟨s1, h1, h2⟩ := Option.bind_eq_some_iff.1 hs
    exact ih (partsStep_safe h h1) h2

/-! ## Functions -/

/-- The call is marked as it has to be. -/
theorem call_safe {u : UnsafetyNeeded} {f : Ident} {args : List Rs} {conv : Bool}
    (hc : conv = Rs.anyExposed u.bridgeToken args) (ha : ∀ ctx, Rs.allNoIdleBlock u.bridgeToken ctx args = true)
    (hu : u.wrapperToken = false) :
    StmtSafe u.bridgeToken (MaybeUnsafe.maybe (.call f args) (conv || u = .justBridge)) ∧
      ∀ ctx, StmtTidy u.bridgeToken ctx (MaybeUnsafe.maybe (.call f args) (conv || u = .justBridge)) := by
  have hex : (Rs.call f args).exposed u.bridgeToken = (conv || decide (u = .justBridge)) := by
    rw [Rs.exposed, ← hc, Bool.or_comm]
    congr 1
    cases u <;> first | rfl | cases hu
  cases hm : (conv || decide (u = .justBridge)) with
  | true =>
    rw [hm] at hex
    exact ⟨trivial, fun ctx => ⟨hex, by rw [Rs.noIdleBlock]; exact ha true⟩⟩
  | false =>
    rw [hm] at hex
    exact ⟨hex, fun ctx => by
      show Rs.noIdleBlock _ ctx _ = true
      rw [Rs.noIdleBlock]
      exact ha ctx⟩

theorem call_tidy {b : Bool} {f : Ident} {args : List Rs} {m : Bool}
    (ha : ∀ ctx, Rs.allNoIdleBlock b ctx args = true) (hm : m = true → (Rs.call f args).exposed b = true) (ctx : Bool) :
    StmtTidy b ctx (MaybeUnsafe.maybe (.call f args) m) := by
  cases m with
  | true => exact ⟨hm rfl, by rw [Rs.noIdleBlock]; exact ha true⟩
  | false => show Rs.noIdleBlock _ ctx _ = true; rw [Rs.noIdleBlock]; exact ha ctx

/-- Converting the result keeps all that. -/
theorem convertedCall_safe {g : FnGen} {call call' : MaybeUnsafe Rs} {ret ret' : Option RTy} {n : Nat} {b : Bool}
    (hcall : StmtSafe b call) (h : convertedCall g call false ret n = some (call', ret')) : StmtSafe b call' := by
  rw [convertedCall] at h
  split at h
  · rename_i c _
    split at h
    · split at h
      · rename_i expr he
        have hexpr : expr.exposed b = false :=
          tokens_safe (items := [call]) (by simpa using hcall) expr (by rw [he]; simp)
        split at h
        · rename_i ty conv u m hc
          cases h
          obtain ⟨h1, -, -, -⟩ := rustConvert_unsafe b hc
          cases u with
          | true => exact trivial
          | false =>
            show conv.exposed b = false
            cases hv : conv.exposed b with
            | false => rfl
            | true => rw [h1 rfl hv] at hexpr; cases hexpr
        · cases h
      · cases h
    · cases h; exact hcall
  · cases h; exact hcall

theorem convertedCall_tidy {g : FnGen} {call call' : MaybeUnsafe Rs} {ret ret' : Option RTy} {n : Nat} {b ctx : Bool}
    (hcall : StmtTidy b ctx call)
    (hr : ∀ c, g.retConversion = some c → c.rustConversion = .none ∨ c.rustConversion = .fromPointerToReferenceWrapper)
    (h : convertedCall g call ctx ret n = some (call', ret')) : StmtTidy b ctx call' := by
  rw [convertedCall] at h
  split at h
  · rename_i c hg
    split at h
    · rename_i hw
      have hp : c.rustConversion = .fromPointerToReferenceWrapper := by
        rcases hr c hg with hp | hp
        · rw [TypeConversionPolicy.rustWorkNeeded, hp] at hw; simp at hw
        · exact hp
      split at h
      · rename_i expr he
        have hexpr : expr.noIdleBlock b ctx = true :=
          tokens_tidy (items := [call]) (by simpa using hcall) expr (by rw [he]; simp)
        rw [TypeConversionPolicy.rustConvert, hp] at h
        dsimp only at h
        cases hq : ptrParts c.unwrappedType with
        | none => rw [hq] at h; cases h
        | some q =>
          rw [hq, Option.map_some] at h
          cases h
          show Rs.noIdleBlock b ctx (.fromPtr _ expr) = true
          rw [Rs.noIdleBlock]
          exact hexpr
      · cases h
    · cases h; exact hcall
  · cases h; exact hcall

/-- **C69**: what may only be done in `unsafe` code is only done in the `unsafe` blocks of a generated function, unless
the function is `unsafe` itself. -/
theorem wrapper_unsafe_enclosed {g : FnGen} {avoidSelf : Bool} {order : Option (List Nat)} {ret : Option RTy} {sig : Sig}
    {body : List Rs} (h : commonParts g avoidSelf order ret = some (sig, body)) (ha : g.alwaysUnsafe = false)
    (hu : g.needed.wrapperToken = false) : ∀ s ∈ body, s.exposed g.needed.bridgeToken = false := by
  rw [commonParts] at h
  obtain ⟨s, hloop, h⟩ := Option.bind_eq_some_iff.1 h
  obtain ⟨params, hord, h⟩ := Option.bind_eq_some_iff.1 h
  obtain ⟨sig0, hsig, h⟩ := Option.bind_eq_some_iff.1 h
  obtain ⟨⟨call, ret'⟩, hcall, h⟩ := Option.bind_eq_some_iff.1 h
  obtain ⟨stmts, hstmts, h⟩ := Option.map_eq_some_iff.1 h
  cases h
  have hctx : (decide (g.needed = .always) || g.alwaysUnsafe) = false := by
    rw [ha]
    cases hn : g.needed <;> first | rfl | (rw [hn] at hu; cases hu)
  rw [hctx] at hcall ⊢
  have hs := partsLoop_safe (b := g.needed.bridgeToken) (s := { ret := ret.or (g.retType.map .plain) })
    ⟨rfl, fun _ => rfl, fun i hi => by cases hi⟩ hloop
  have hc := convertedCall_safe (call_safe hs.conv hs.args hu).1 hcall
  refine tokens_safe fun i hi => ?_
  rw [bodyStmts.eq_def] at hstmts
  split at hstmts
  · cases hstmts
    rcases List.mem_append.1 hi with hi | hi
    · exact (hs.locals i hi).1
    · rw [List.mem_singleton.1 hi]; exact hc
  · cases hstmts
    rw [List.mem_singleton.1 hi]
    trivial
  · cases hstmts

/-- What the place for the result comes from. -/
theorem ptrArg_from {avoidSelf : Bool} {ds : List ArgumentAnalysis} : ∀ {s s' : PartsState},
    partsLoop avoidSelf s ds = some s' → s'.ptrArg = s.ptrArg ∨
      ∃ pd ∈ ds, pd.dest = true ∨ pd.conversion.rustConversion = .fromPlacementParamToNewReturn := by
  induction ds with
  | nil => intro s s' h; cases h; exact .inl rfl
  | cons pd ds ih =>
    intro s s' h
    rw [partsLoop] at h
    obtain ⟨s1, h1, h2⟩ := Option.bind_eq_some_iff.1 h
    rcases ih h2 with h3 | ⟨q, hq, h3⟩
    · rw [partsStep] at h1
      split at h1
      · cases h1
      · cases h1
        cases hd : pd.isPlacementReturnDestination with
        | true => exact .inr ⟨pd, by simp, .inl hd⟩
        | false => left; rw [h3, hd]; rfl
      · rename_i ty c hc
        refine .inr ⟨pd, by simp, .inr ?_⟩
        by_contra hp
        by_cases hv : pd.conversion.rustConversion = .fromValueParamToPtr
        · rw [TypeConversionPolicy.rustConvert, hv] at hc; cases hc
        by_cases hr : pd.conversion.rustConversion = .fromRValueParamToPtr
        · rw [TypeConversionPolicy.rustConvert, hr] at hc; cases hc
        obtain ⟨_, _, _, h⟩ := rustConvert_direct hp hv hr hc
        cases h
    · exact .inr ⟨q, List.mem_cons_of_mem _ hq, h3⟩

/-- **C69**: no `unsafe` block of a generated function is there for nothing. A function which builds its result where the
caller says must not have it converted as well. -/
theorem wrapper_no_idle_unsafe {g : FnGen} {avoidSelf : Bool} {order : Option (List Nat)} {ret : Option RTy} {sig : Sig}
    {body : List Rs} (h : commonParts g avoidSelf order ret = some (sig, body)) (ha : g.alwaysUnsafe = false)
    (hr : ∀ c, g.retConversion = some c → c.rustConversion = .none ∨ c.rustConversion = .fromPointerToReferenceWrapper)
    (hp : ∀ pd ∈ g.details, pd.dest = true ∨ pd.conversion.rustConversion = .fromPlacementParamToNewReturn →
      ∀ c, g.retConversion = some c → c.rustConversion = .none) :
    ∀ s ∈ body, s.noIdleBlock g.needed.bridgeToken g.needed.wrapperToken = true := by
  rw [commonParts] at h
  obtain ⟨s, hloop, h⟩ := Option.bind_eq_some_iff.1 h
  obtain ⟨params, hord, h⟩ := Option.bind_eq_some_iff.1 h
  obtain ⟨sig0, hsig, h⟩ := Option.bind_eq_some_iff.1 h
  obtain ⟨⟨call, ret'⟩, hcall, h⟩ := Option.bind_eq_some_iff.1 h
  obtain ⟨stmts, hstmts, h⟩ := Option.map_eq_some_iff.1 h
  cases h
  have hctx : (decide (g.needed = .always) || g.alwaysUnsafe) = g.needed.wrapperToken := by
    rw [ha]
    cases g.needed <;> rfl
  rw [hctx] at hcall ⊢
  have hs := partsLoop_safe (b := g.needed.bridgeToken) (s := { ret := ret.or (g.retType.map .plain) })
    ⟨rfl, fun _ => rfl, fun i hi => by cases hi⟩ hloop
  have htidy : ∀ ctx, StmtTidy g.needed.bridgeToken ctx
      (MaybeUnsafe.maybe (.call g.bridgeName s.args) (s.unsafeConversion || g.needed = .justBridge)) := by
    refine call_tidy hs.args fun hm => ?_
    rw [Rs.exposed, ← hs.conv]
    rw [Bool.or_eq_true] at hm
    rcases hm with hm | hm
    · rw [hm, Bool.or_true]
    · rw [of_decide_eq_true hm]; rfl
  refine tokens_tidy fun i hi => ?_
  rw [bodyStmts.eq_def] at hstmts
  split at hstmts
  · cases hstmts
    rcases List.mem_append.1 hi with hi | hi
    · exact (hs.locals i hi).2 _
    · rw [List.mem_singleton.1 hi]; exact convertedCall_tidy (htidy _) hr hcall
  · rename_i x hx
    cases hstmts
    have hcall' : call = MaybeUnsafe.maybe (.call g.bridgeName s.args) (s.unsafeConversion || g.needed = .justBridge) := by
      rcases ptrArg_from hloop with h1 | ⟨pd, hpd, h1⟩
      · rw [hx] at h1; cases h1
      · have h2 := hp pd hpd h1
        rw [convertedCall] at hcall
        split at hcall
        · rename_i c hc
          rw [if_neg (by simp [TypeConversionPolicy.rustWorkNeeded, h2 c hc])] at hcall
          cases hcall
          rfl
        · cases hcall
          rfl
    rw [List.mem_singleton.1 hi]
    refine ⟨by rw [Rs.exposed], ?_⟩
    rw [Rs.noIdleBlock]
    refine allNoIdleBlock_iff.2 (tokens_tidy fun j hj => ?_)
    rcases List.mem_append.1 hj with hj | hj
    · exact (hs.locals j hj).2 _
    · simp only [List.mem_cons, List.not_mem_nil, or_false] at hj
      rcases hj with rfl | rfl
      · exact ⟨by simp [Rs.noIdleBlock], by simp [Rs.noIdleBlock]⟩
      · rw [hcall']; exact htidy _
  · cases hstmts

/-! ## Every generated function -/

theorem castDetails_call (p q : QName) (mu : CastMutability) : (castDetails p q mu).traitCallIsUnsafe = false := by
  cases mu <;> rfl

/-- No trait makes calls `unsafe` by itself. -/
theorem FnSteps.plain_calls {env : FnEnv} {s s' : FnState} {name n : ApiName} {f : FuncToConvert} {soph : Sophistication}
    {pre : Option String} {a : FnAnalysis} (t : FnSteps env s name f soph pre s' a n) (hb : t.bads = [])
    (nonPod : List QName) : (a.gen nonPod).alwaysUnsafe = false := by
  obtain ⟨base, hk, _⟩ := t.bound hb
  show (match a.kind with
    | .traitMethod _ _ d => d.traitCallIsUnsafe
    | _ => false) = false
  generalize a.kind = kind at hk ⊢
  cases hk
  case cast h hm => exact castDetails_call ..
  all_goals rfl

/-- A result which is built in place is not converted. -/
theorem FnSteps.placed_result {env : FnEnv} {s s' : FnState} {name n : ApiName} {f : FuncToConvert} {soph : Sophistication}
    {pre : Option String} {a : FnAnalysis} (t : FnSteps env s name f soph pre s' a n)
    (h : f.output = none ∨ t.ret.placement.isSome = true) :
    ∀ c, a.retConversion = some c → c.rustConversion = .none := by
  rw [t.retConversion_eq]
  rcases t.hret with ⟨hr, _⟩ | ⟨e, _, hr, _⟩
  · have hr := convertReturn_ok hr
    generalize f.output = out at hr h
    generalize t.ret = ret at hr h
    generalize t.s4 = s4 at hr
    cases hr with
    | nothing => exact fun c hc => by cases hc
    | plain h1 hp hr =>
      obtain ⟨c, hc, rfl⟩ := Option.map_eq_some_iff.1 hr
      rcases h with h | h <;> cases h
    | value h1 ht hq hp hr =>
      rcases valueReturn_ok hr with ⟨p, _, _, h2, rfl⟩ | ⟨_, _, rfl⟩
      · exact fun c hc => by cases hc; rfl
      · exact fun c hc => by cases hc; rfl
  · rw [hr]; exact fun c hc => by cases hc

/-- **C69**: in every Rust function generated for a C++ function – a function, a method, a constructor or a method of a
trait – whatever may only be done in `unsafe` code is in an `unsafe` block, unless the function is `unsafe` itself; and
no `unsafe` block is in an `unsafe` function or another such block, or has nothing in it which needs it. -/
theorem generated_unsafe_exact {env : FnEnv} {s s' : FnState} {name n : ApiName} {f : FuncToConvert}
    {soph : Sophistication} {pre : Option String} {a : FnAnalysis} {nonPod : List QName} {r : FnResult} {it : RsFnItem}
    (h : analyzeForeignFn env s name f soph pre = .done (s', a, n)) (hx : a.ignoreReason = none)
    (hd : Described f a.kind) (hg : genFunction n.name a nonPod = some r) (hit : it ∈ r.fns) :
    ∃ b ∈ r.externC, b.name = a.cxxbridgeName ∧
      (it.isUnsafe = false → ∀ st ∈ it.body, st.exposed b.isUnsafe = false) ∧
      (∀ st ∈ it.body, st.noIdleBlock b.isUnsafe it.isUnsafe = true) := by
  obtain ⟨t⟩ := analyze_steps h
  obtain ⟨he, _, _, hb, _, _⟩ := exposed_parts t hx
  obtain ⟨hrest, hret⟩ := t.rest
  obtain ⟨hm, _⟩ := t.modes he hb
  obtain ⟨_, ret, hc, _, hu⟩ := commonParts_of_fns hg hit
  have hal := t.plain_calls hb nonPod
  have hbr : ∃ b ∈ r.externC, b.name = a.cxxbridgeName ∧ b.isUnsafe = a.requiresUnsafe.bridgeToken := by
    rw [genFunction] at hg
    split at hg
    · cases hg; cases hit
    · obtain ⟨piece, hp, hg⟩ := Option.bind_eq_some_iff.1 hg
      obtain ⟨b, hb, rfl⟩ := Option.map_eq_some_iff.1 hg
      refine ⟨b, List.mem_singleton.2 rfl, ?_⟩
      rw [bridgeFn] at hb
      obtain ⟨_, _, hb⟩ := Option.bind_eq_some_iff.1 hb
      obtain ⟨_, _, hb⟩ := Option.bind_eq_some_iff.1 hb
      obtain ⟨_, _, hb⟩ := Option.bind_eq_some_iff.1 hb
      obtain ⟨_, _, rfl⟩ := Option.map_eq_some_iff.1 hb
      exact ⟨rfl, rfl⟩
  obtain ⟨b, hbm, hbn, hbu⟩ := hbr
  refine ⟨b, hbm, hbn, ?_, ?_⟩
  · rw [hbu, hu]
    exact wrapper_unsafe_enclosed hc hal
  · rw [hbu, hu]
    refine wrapper_no_idle_unsafe hc hal hret fun pd hpd hdest c hrc => ?_
    have hpd : pd ∈ a.paramDetails := hpd
    have hrc : a.retConversion = some c := hrc
    rw [t.details_eq] at hpd
    obtain ⟨p, hp, rfl⟩ := List.mem_map.1 hpd
    rcases List.mem_append.1 hp with hp | hp
    · obtain ⟨i, hi, idx, s1, s2, hcv⟩ := hm.all2.right hp
      rcases hdest with hdest | hdest
      · rcases (param_name hcv).1 with ⟨_, _, _, _, h1⟩ | ⟨_, _, _, h1⟩
        · rw [h1] at hdest; cases hdest
        · have hout := hd.noResult (.inl (h1 hdest).1)
          exact t.placed_result (.inl hout) c hrc
      · exact absurd hdest (param_name hcv).2.1
    · refine t.placed_result (.inr ?_) c hrc
      cases hpl : t.ret.placement with
      | none => rw [hpl] at hp; cases hp
      | some q => rfl

/-! ## What the caller sees -/

/-- The object is only left as a pointer where it is to be built, but for methods of traits. -/
theorem paramMode_into {f : FuncToConvert} {soph : Sophistication} {kind : FnKind} {idx : Nat} (hk : ¬ kind.OfTrait)
    (h : (paramMode f soph kind idx).thisAsReference = false) : (paramMode f soph kind idx).intoSelf = true := by
  rw [paramMode.eq_def] at h ⊢
  dsimp only at h ⊢
  split at h
  · rfl
  · exact absurd trivial hk
  · exact absurd trivial hk
  · exact absurd trivial hk
  · exact absurd trivial hk
  · cases h

/-- A function which is only `unsafe` in the bridge has something converted in Rust, or is a constructor. -/
theorem just_bridge {env : FnEnv} {s s' : FnState} {name n : ApiName} {f : FuncToConvert} {soph : Sophistication}
    {pre : Option String} {a : FnAnalysis} (t : FnSteps env s name f soph pre s' a n) (hx : a.ignoreReason = none)
    (hk : ¬ a.kind.OfTrait) (hj : a.requiresUnsafe = .justBridge) :
    (∃ p ∈ a.paramDetails, p.conversion.rustConversion ≠ .none) ∨ ∃ b q, a.kind = .method (.constructor b) q := by
  obtain ⟨he, _, _, hb, _, _⟩ := exposed_parts t hx
  obtain ⟨hm, _⟩ := t.modes he hb
  have h1 := caller_unsafe_iff env.policy a.paramDetails a.kind
  have h2 := bridge_unsafe_iff env.policy a.paramDetails a.kind
  rw [← t.unsafe_eq, hj] at h1 h2
  obtain ⟨pd, hpd, hne⟩ : ∃ p ∈ a.paramDetails, p.requiresUnsafe ≠ .none := by
    rcases h2.1 rfl with h | h
    · cases h
    · exact h
  have hvis : pd.requiresUnsafe = .always → pd.Hidden := by
    intro hal
    by_contra hh
    have := h1.2 (.inr ⟨hk, .inr ⟨pd, hpd, hal, hh⟩⟩)
    cases this
  have hpd' := hpd
  rw [t.details_eq] at hpd'
  obtain ⟨p, hp, rfl⟩ := List.mem_map.1 hpd'
  rcases List.mem_append.1 hp with hp | hp
  · obtain ⟨i, hi, idx, s1, s2, hcv⟩ := hm.all2.right hp
    have hname := (param_name hcv).1
    by_cases hdest : p.2.dest = true
    · rcases hname with ⟨_, _, _, _, h⟩ | ⟨_, _, _, h⟩
      · rw [h] at hdest; cases hdest
      · exact .inr (h hdest).1
    · rw [Bool.not_eq_true] at hdest
      left
      refine ⟨p.2, hpd, fun hn => ?_⟩
      obtain ⟨nm, ty, self, into, hpr, hna⟩ := convertFnArg_ok hcv
      obtain ⟨st, c, conv, hc, _, hv, rfl⟩ := convertNamedArg_ok hna
      generalize hmode : paramMode f soph a.kind idx = m at *
      have hdest : (into || decide (m.force = some .fromPlacementParamToNewReturn)) = false := hdest
      have hreq : (recordedArg nm self (into || decide (m.force = some .fromPlacementParamToNewReturn)) c conv).requiresUnsafe =
        argUnsafety c.kind conv (into || decide (m.force = some .fromPlacementParamToNewReturn)) := rfl
      dsimp only at hne hvis hn
      rw [hreq, hdest] at hne hvis
      have hn : conv.rustConversion = .none := hn
      by_cases hkp : c.kind = .pointer
      · rcases hvis (argUnsafety_always.2 ⟨hkp, rfl⟩) with hs | hs
        · cases hpr with
          | thisRef ht hr =>
            rename_i ty0 ty' q
            obtain ⟨mu, e, rfl⟩ := thisType_ptr ht
            rcases convert_lvalue hc with h | h <;> rw [h] at hkp <;> cases hkp
          | thisPtr ht hr =>
            have h3 := paramMode_into hk (hmode ▸ hr)
            rw [hmode] at h3
            rw [h3] at hdest
            cases hdest
          | other hnt hv' => cases hs
        · cases hs
      · rw [argUnsafety, if_neg (fun h => hkp h.1), if_neg] at hne
        · exact hne rfl
        · rintro (h | h)
          · rw [TypeConversionPolicy.bridgeUnsafeNeeded, hn] at h; cases h
          · cases h
  · left
    have hf := ((t.rest).1 p hp).1
    exact ⟨p.2, hpd, by rw [hf.2.2]; intro h; cases h⟩

/-- A function with no Rust function made for it needs none. -/
theorem no_wrapper_made {name : QName} {a : FnAnalysis} {nonPod : List QName} {r : FnResult}
    (hg : genFunction name a nonPod = some r) (hf : r.fns = []) : r.externC = [] ∨ a.rustWrapperNeeded = false := by
  rw [genFunction] at hg
  split at hg
  · cases hg; exact .inl rfl
  · obtain ⟨piece, hp, hg⟩ := Option.bind_eq_some_iff.1 hg
    obtain ⟨b, _, rfl⟩ := Option.map_eq_some_iff.1 hg
    right
    rw [fnPiece] at hp
    split at hp
    · split at hp
      all_goals
        obtain ⟨e, _, rfl⟩ := Option.map_eq_some_iff.1 hp
        cases hf
    · rename_i hw
      exact Bool.not_eq_true _ ▸ hw

/-- A name in the bridge is never shorter than the name in Rust. -/
theorem bridge_name_length (t : BridgeNameTracker) (r : BridgeReq) : r.found.length ≤ (t.getName r).2.length := by
  have hp : r.found.length ≤ r.plain.length := by
    rw [BridgeReq.plain]
    split
    · rename_i h
      rw [h]
      decide
    · exact Nat.le_refl _
  have hq : r.found.length ≤ r.qualified.length := by
    rw [BridgeReq.qualified, ← List.append_assoc]
    rcases joinU_last (r.ns ++ r.ty.toList) r.plain with h | ⟨p, h⟩
    · rw [h]; exact hp
    · rw [h]; simp only [String.length_append]; omega
  have hg := bridge_getName t r
  generalize (t.getName r).1 = t', (t.getName r).2 = n at hg
  cases hg with
  | plain => exact hp
  | qualified => exact hq
  | numbered => simp only [numbered, String.length_append]; omega

/-- **C65**: the function of the bridge which a constructor is reached through never has the name the constructor has in
Rust, however both came about. -/
theorem constructor_renamed {env : FnEnv} {s s' : FnState} {name n : ApiName} {f : FuncToConvert}
    {soph : Sophistication} {pre : Option String} {a : FnAnalysis}
    (h : analyzeForeignFn env s name f soph pre = .done (s', a, n))
    (hk : ∃ b q, a.kind = .method (.constructor b) q) : a.cxxbridgeName ≠ a.rustName := by
  obtain ⟨t⟩ := analyze_steps h
  obtain ⟨w, final, _, hw, hf, _, _, _, ha⟩ := finish_inv t.hfin
  obtain ⟨b, q, hk⟩ := hk
  have hk' : t.kn.kind = .method (.constructor b) q := (congrArg FnAnalysis.kind ha).symm.trans hk
  rw [hk'] at hw
  have hw' : w = true := hw
  subst hw'
  have hb := bridge_name_length t.s3.bridge { ty := t.kn.kind.bridgeTy, found := t.kn.rustName, ns := name.name.ns }
  rw [t.hbridge] at hb
  dsimp only at hb
  intro he
  have hl : final.length = t.kn.rustName.length :=
    congrArg String.length (((congrArg FnAnalysis.cxxbridgeName ha).symm.trans he).trans (congrArg FnAnalysis.rustName ha))
  rw [hf, if_pos rfl, wrapperName, uniquify] at hl
  simp only [String.length_append] at hl
  have : ("0x" : String).length = 2 := by decide
  omega

/-- **C18**, **C69**: what a caller of the generated code sees of a function or method – the Rust function generated for
it or, if there is none, the function of the bridge – is `unsafe` exactly if the policy makes all functions unsafe, or it
takes a raw pointer other than the object it works on and the place for its result. -/
theorem caller_sees_unsafe_iff {env : FnEnv} {s s' : FnState} {name n : ApiName} {f : FuncToConvert}
    {soph : Sophistication} {pre : Option String} {a : FnAnalysis} {nonPod : List QName} {r : FnResult}
    (h : analyzeForeignFn env s name f soph pre = .done (s', a, n)) (hx : a.ignoreReason = none) (hk : ¬ a.kind.OfTrait)
    (hg : genFunction n.name a nonPod = some r) :
    (∀ it ∈ r.fns, (it.isUnsafe = true ↔
      env.policy = .allFunctionsUnsafe ∨ ∃ p ∈ a.paramDetails, ¬ p.Hidden ∧ p.RawPointer)) ∧
    (r.fns = [] → ∀ b ∈ r.externC, (b.isUnsafe = true ↔
      env.policy = .allFunctionsUnsafe ∨ ∃ p ∈ a.paramDetails, ¬ p.Hidden ∧ p.RawPointer)) := by
  rw [← unsafe_iff_pointer h hk]
  refine ⟨fun it hit => ?_, fun hf b hb => ?_⟩
  · obtain ⟨_, _, _, _, hu⟩ := commonParts_of_fns hg hit
    rw [hu]
  · obtain ⟨t⟩ := analyze_steps h
    have hw : a.rustWrapperNeeded = false := by
      rcases no_wrapper_made hg hf with h1 | h1
      · rw [h1] at hb; cases hb
      · exact h1
    have hbu : b.isUnsafe = a.requiresUnsafe.bridgeToken := by
      rw [genFunction] at hg
      split at hg
      · cases hg; cases hb
      · obtain ⟨piece, hp, hg⟩ := Option.bind_eq_some_iff.1 hg
        obtain ⟨b', hb', rfl⟩ := Option.map_eq_some_iff.1 hg
        rw [List.mem_singleton.1 hb]
        rw [bridgeFn] at hb'
        obtain ⟨_, _, hb'⟩ := Option.bind_eq_some_iff.1 hb'
        obtain ⟨_, _, hb'⟩ := Option.bind_eq_some_iff.1 hb'
        obtain ⟨_, _, hb'⟩ := Option.bind_eq_some_iff.1 hb'
        obtain ⟨_, _, rfl⟩ := Option.map_eq_some_iff.1 hb'
        rfl
    rw [hbu]
    have hj : a.requiresUnsafe ≠ .justBridge := by
      intro hj
      have hn := just_bridge t hx hk hj
      obtain ⟨w, final, _, _, _, _, _, _, ha⟩ := finish_inv t.hfin
      have h1 : rustWrapperNeeded env a.kind a.cxxbridgeName a.rustName a.paramDetails a.retConversion = true := by
        rw [rustWrapperNeeded_iff]
        rcases hn with hn | hn
        · exact .inl hn
        · obtain ⟨b, q, hkk⟩ := hn
          exact .inr (.inr (.inr (.inl ⟨constructor_renamed h ⟨b, q, hkk⟩, _, _, hkk⟩)))
      rw [ha] at h1 hw
      dsimp only at h1 hw
      rw [h1] at hw
      cases hw
    cases hr : a.requiresUnsafe with
    | none => exact Iff.rfl
    | justBridge => exact absurd hr hj
    | always => exact Iff.rfl

end Verif
