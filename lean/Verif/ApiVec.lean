import Verif.Names

/-!
# `ApiVec` and the error-reporting wrappers

engine/src/conversion/apivec.rs and engine/src/conversion/error_reporter.rs.
-/

set_option autoImplicit false

namespace Verif
variable {T S F T' S' F' : Type}

/-- `IndexSet::insert`. -/
def setInsert {α : Type} [DecidableEq α] (l : List α) (a : α) : List α :=
  if a ∈ l then l else l ++ [a]

/-- `ApiVec<P>`: engine/src/conversion/apivec.rs:45-49. -/
structure ApiVec (T S F : Type) where
  apis : List (Api T S F) := []
  names : List QName := []

namespace ApiVec

/-- `ApiVec::already_contains`: engine/src/conversion/apivec.rs:77-79. -/
def alreadyContains (v : ApiVec T S F) (n : QName) : Bool := n ∈ v.names

/-- The branch of `push` for a name which is not yet present: engine/src/conversion/apivec.rs:71-74. -/
def pushNew (v : ApiVec T S F) (a : Api T S F) : ApiVec T S F :=
  { apis := v.apis ++ [a], names := setInsert v.names a.name }

/-- `ApiVec::retain`: engine/src/conversion/apivec.rs:107-115. -/
def retain (v : ApiVec T S F) (p : Api T S F → Bool) : ApiVec T S F :=
  let apis := v.apis.filter p
  { apis, names := (apis.map (·.name)).foldl setInsert [] }

/-- The marker `push` puts in place of duplicates: engine/src/conversion/apivec.rs:65-69. -/
def duplicateMarker (n : QName) : Api T S F :=
  .ignoredItem (ApiName.ofQName n) .duplicateItemsFoundInParsing
    (some (ErrorContext.newForItem n.name))

/-- `ApiVec::push` for an `IgnoredItem` (whose `discard_duplicates` is true): the recursive call at
engine/src/conversion/apivec.rs:65 is always of this kind. -/
def pushMarker (v : ApiVec T S F) (a : Api T S F) : ApiVec T S F :=
  if v.alreadyContains a.name then v else v.pushNew a

/-- `ApiVec::push`: engine/src/conversion/apivec.rs:52-75. -/
def push (v : ApiVec T S F) (a : Api T S F) : ApiVec T S F :=
  if v.alreadyContains a.name then
    if a.discardDuplicates then v
    else (v.retain fun b => b.name ≠ a.name).pushMarker (duplicateMarker a.name)
  else v.pushNew a

/-- `ApiVec::extend`: engine/src/conversion/apivec.rs:89-94. -/
def extend (v : ApiVec T S F) (l : List (Api T S F)) : ApiVec T S F := l.foldl push v

/-- `ApiVec::append`: engine/src/conversion/apivec.rs:85-87. Gives both vectors: the source keeps its
name index. -/
def append (v more : ApiVec T S F) : ApiVec T S F × ApiVec T S F :=
  (v.extend more.apis, { more with apis := [] })

/-- `ApiVec::from_iter`: engine/src/conversion/apivec.rs:127-136. -/
def fromIter (l : List (Api T S F)) : ApiVec T S F := extend {} l

end ApiVec

/-- `api_or_error`: engine/src/conversion/error_reporter.rs:175-185. -/
def apiOrError (name : ApiName) (r : Except ErrWithCtx (List (Api T S F))) : List (Api T S F) :=
  match r with
  | .ok l => l
  | .error e => [.ignoredItem name e.err e.ctx]

/-- The passes over a list which thread the state of a `FnMut` closure. -/
def flatMapM {σ α β : Type} (f : σ → α → σ × List β) : σ → List α → σ × List β
  | s, [] => (s, [])
  | s, a :: r =>
    let (s', l) := f s a
    let (s'', m) := flatMapM f s' r
    (s'', l ++ m)

/-- `convert_item_apis`: engine/src/conversion/error_reporter.rs:191-206, with the closure's state
threaded through. -/
def convertItemApisM {σ : Type} (f : σ → Api T S F → σ × Except Err (List (Api T' S' F')))
    (s : σ) (ins : ApiVec T S F) (out : ApiVec T' S' F') : σ × ApiVec T' S' F' :=
  let (s', l) := flatMapM (fun s a =>
    let (s', r) := f s a
    (s', apiOrError a.nameInfo (match r with
      | .ok l => .ok l
      | .error e => .error ⟨e, some (ErrorContext.newForItem a.name.name)⟩))) s ins.apis
  (s', out.extend l)

/-- `convert_item_apis` with a closure that has no state. -/
def convertItemApis (f : Api T S F → Except Err (List (Api T' S' F')))
    (ins : ApiVec T S F) (out : ApiVec T' S' F') : ApiVec T' S' F' :=
  out.extend (ins.apis.flatMap fun a => apiOrError a.nameInfo (match f a with
    | .ok l => .ok l
    | .error e => .error ⟨e, some (ErrorContext.newForItem a.name.name)⟩))

/-- The four conversions given to `convert_apis` (engine/src/conversion/error_reporter.rs:56-87). They
are `FnMut` closures sharing a state `σ`. -/
structure Conversions (σ T S F T' S' F' : Type) where
  func : σ → ApiName → FuncToConvert → F → σ × Except ErrWithCtx (List (Api T' S' F'))
  struct : σ → ApiName → StructDetails → S → σ × Except ErrWithCtx (List (Api T' S' F'))
  enum : σ → ApiName → String → σ × Except ErrWithCtx (List (Api T' S' F'))
  typedef : σ → ApiName → TypedefItem → Option QName → T → σ × Except ErrWithCtx (List (Api T' S' F'))

/-- The body of the closure in `convert_apis`: engine/src/conversion/error_reporter.rs:90-171. -/
def convertApi {σ : Type} (c : Conversions σ T S F T' S' F') (s : σ) :
    Api T S F → σ × Except ErrWithCtx (List (Api T' S' F'))
  | .concreteType n r d => (s, .ok [.concreteType n r d])
  | .forwardDeclaration n e => (s, .ok [.forwardDeclaration n e])
  | .opaqueTypedef n f => (s, .ok [.opaqueTypedef n f])
  | .stringConstructor n => (s, .ok [.stringConstructor n])
  | .const n i => (s, .ok [.const n i])
  | .ctype n t => (s, .ok [.ctype n t])
  | .rustType n p => (s, .ok [.rustType n p])
  | .rustFn n d => (s, .ok [.rustFn n d])
  | .rustSubclassFn n sub d => (s, .ok [.rustSubclassFn n sub d])
  | .subclass n sup => (s, .ok [.subclass n sup])
  | .ignoredItem n e c => (s, .ok [.ignoredItem n e c])
  | .subclassTraitItem n d => (s, .ok [.subclassTraitItem n d])
  | .externCppType n p o => (s, .ok [.externCppType n p o])
  | .enum n i => c.enum s n i
  | .typedef n i o a => c.typedef s n i o a
  | .function n f a => c.func s n f a
  | .struct n d a => c.struct s n d a

/-- `convert_apis`: engine/src/conversion/error_reporter.rs:56-173. -/
def convertApis {σ : Type} (c : Conversions σ T S F T' S' F') (s : σ)
    (ins : ApiVec T S F) (out : ApiVec T' S' F') : σ × ApiVec T' S' F' :=
  let (s', l) := flatMapM (fun s a =>
    let (s', r) := convertApi c s a
    (s', apiOrError a.nameInfo r)) s ins.apis
  (s', out.extend l)

/-- The identifier under which `report_any_error` files an error:
engine/src/conversion/error_reporter.rs:40-43. -/
def ErrorContext.filedUnder : ErrorContext → Ident
  | .item id | .sanitizedItem id => id
  | .method selfTy _ => selfTy

/-- `report_any_error`: engine/src/conversion/error_reporter.rs:25-52. -/
def reportAnyError {α : Type} (ns : List String) (apis : ApiVec T S F)
    (r : Except ErrWithCtx α) : ApiVec T S F × Option α :=
  match r with
  | .ok a => (apis, some a)
  | .error ⟨_, none⟩ => (apis, none)
  | .error ⟨err, some ctx⟩ =>
    (apis.push (.ignoredItem (ApiName.ofQName ⟨ns, ctx.filedUnder⟩) err (some ctx)), none)

end Verif
