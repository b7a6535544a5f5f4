import Verif.ParseFile

/-!
# The search of Rust code for uses of C++ and for things offered to C++

engine/src/ast_discoverer.rs. Rust code is `syn`'s syntax tree. Left out are tokens, spans, lifetimes, visibility, labels,
the names of fields and methods, and attributes except on items which are looked at. A macro is the paths among its
tokens. Of generic parameters there are only the bounds.
-/

set_option autoImplicit false

namespace Verif

set_option genSizeOf false in
set_option genSizeOfSpec false in
mutual
/-- `syn::Path`. -/
inductive SynPath where
  | mk (segs : List SynSeg)
/-- `syn::PathSegment`. -/
inductive SynSeg where
  | mk (ident : Ident) (args : SynArgs)
/-- `syn::PathArguments`. -/
inductive SynArgs where
  | none
  | angle (args : List SynGArg)
  | paren (inputs : List SynType) (output : Option SynType)
/-- `syn::GenericArgument`. -/
inductive SynGArg where
  | lifetime
  | type (t : SynType)
  | const (e : SynExpr)
  | assocType (generics : SynArgs) (t : SynType)
  | assocConst (generics : SynArgs) (e : SynExpr)
  | constraint (generics : SynArgs) (bounds : List SynBound)
  | other
/-- `syn::TypeParamBound`. -/
inductive SynBound where
  | trait (p : SynPath)
  | other
/-- `syn::Type`. -/
inductive SynType where
  | array (elem : SynType) (len : SynExpr)
  | bareFn (inputs : List SynType) (output : Option SynType)
  | group (t : SynType)
  | implTrait (bounds : List SynBound)
  | infer
  | mac (paths : List SynPath)
  | never
  | paren (t : SynType)
  | path (qself : Option SynType) (p : SynPath)
  | ptr (t : SynType)
  | reference (t : SynType)
  | slice (t : SynType)
  | traitObject (bounds : List SynBound)
  | tuple (elems : List SynType)
  | other
/-- `syn::Pat`. -/
inductive SynPat where
  | const (block : List SynStmt)
  | ident (name : Ident) (sub : Option SynPat)
  | lit
  | mac (paths : List SynPath)
  | or (cases : List SynPat)
  | paren (p : SynPat)
  | path (qself : Option SynType) (p : SynPath)
  | range (lo hi : Option SynExpr)
  | reference (p : SynPat)
  | rest
  | slice (elems : List SynPat)
  | struct (qself : Option SynType) (p : SynPath) (fields : List SynPat)
  | tuple (elems : List SynPat)
  | tupleStruct (qself : Option SynType) (p : SynPath) (elems : List SynPat)
  | type (p : SynPat) (t : SynType)
  | wild
  | other
/-- `syn::Arm`. -/
inductive SynArm where
  | mk (pat : SynPat) (guard : Option SynExpr) (body : SynExpr)
/-- `syn::Expr`. -/
inductive SynExpr where
  | array (elems : List SynExpr)
  | assign (left right : SynExpr)
  | asyncBlock (block : List SynStmt)
  | awaitOn (base : SynExpr)
  | binary (left right : SynExpr)
  | block (block : List SynStmt)
  | breakWith (e : Option SynExpr)
  | call (func : SynExpr) (args : List SynExpr)
  | cast (e : SynExpr) (t : SynType)
  | closure (inputs : List SynPat) (output : Option SynType) (body : SynExpr)
  | const (block : List SynStmt)
  | continueLoop
  | field (base : SynExpr)
  | forLoop (pat : SynPat) (e : SynExpr) (body : List SynStmt)
  | group (e : SynExpr)
  | ite (cond : SynExpr) (thenBranch : List SynStmt) (elseBranch : Option SynExpr)
  | index (e : SynExpr) (index : SynExpr)
  | infer
  | letCond (pat : SynPat) (e : SynExpr)
  | lit
  | loop (body : List SynStmt)
  | mac (paths : List SynPath)
  | matchOn (e : SynExpr) (arms : List SynArm)
  | methodCall (receiver : SynExpr) (turbofish : SynArgs) (args : List SynExpr)
  | paren (e : SynExpr)
  | path (qself : Option SynType) (p : SynPath)
  | range (lo hi : Option SynExpr)
  | reference (e : SynExpr)
  | repeated (e : SynExpr) (len : SynExpr)
  | returnWith (e : Option SynExpr)
  | struct (qself : Option SynType) (p : SynPath) (fields : List SynExpr) (rest : Option SynExpr)
  | tryOp (e : SynExpr)
  | tryBlock (block : List SynStmt)
  | tuple (elems : List SynExpr)
  | unary (e : SynExpr)
  | unsafeBlock (block : List SynStmt)
  | whileLoop (cond : SynExpr) (body : List SynStmt)
  | yieldWith (e : Option SynExpr)
  | other
/-- `syn::Stmt`. -/
inductive SynStmt where
  | letStmt (pat : SynPat) (init : Option SynExpr) (diverge : Option SynExpr)
  | item (i : SynItem)
  | expr (e : SynExpr)
  | mac (paths : List SynPath)
/-- `syn::FnArg`. -/
inductive SynArg where
  | receiver (t : SynType)
  | typed (pat : SynPat) (t : SynType)
/-- `syn::Signature`. -/
inductive SynSig where
  | mk (ident : Ident) (generics : List SynBound) (inputs : List SynArg) (output : Option SynType)
/-- `syn::ImplItem`. -/
inductive SynImplItem where
  | fn (attrs : List Attr) (sig : SynSig) (block : List SynStmt)
  | const (t : SynType) (e : SynExpr)
  | type (t : SynType)
  | mac (paths : List SynPath)
  | other
/-- `syn::TraitItem`. -/
inductive SynTraitItem where
  | fn (sig : SynSig) (block : Option (List SynStmt))
  | const (t : SynType) (e : Option SynExpr)
  | type (bounds : List SynBound) (t : Option SynType)
  | mac (paths : List SynPath)
  | other
/-- `syn::Item`. -/
inductive SynItem where
  | const (t : SynType) (e : SynExpr)
  | enum (attrs : List Attr) (ident : Ident) (generics : List SynBound) (fields : List SynType)
  | fn (attrs : List Attr) (sig : SynSig) (block : List SynStmt)
  | foreignMod (sigs : List SynSig)
  | impl (generics : List SynBound) (trait : Option SynPath) (selfTy : SynType) (items : List SynImplItem)
  | mac (paths : List SynPath)
  | mod (ident : Ident) (items : List SynItem)
  | modDecl (ident : Ident)
  | static (t : SynType) (e : SynExpr)
  | struct (attrs : List Attr) (ident : Ident) (generics : List SynBound) (fields : List SynType)
  | trait (generics : List SynBound) (supers : List SynBound) (items : List SynTraitItem)
  | type (t : SynType)
  | union (generics : List SynBound) (fields : List SynType)
  | use (path : SynPath)
  | other
end

/-- The discoveries so far are added to, or an error ends the search. -/
abbrev SearchResult := Except DiscoveryErr Discoveries

namespace Syn

def ident : SynSeg → Ident
  | .mk i _ => i

/-- engine/src/ast_discoverer.rs:165-172: a path which starts with `ffi` is noted without it. -/
def notePath (d : Discoveries) : List SynSeg → Discoveries
  | [] => d
  | s :: rest =>
    if ident s = "ffi" then { d with cppList := insertNew d.cppList (joinCC (rest.map ident)) } else d

/-- engine/src/ast_discoverer.rs:499-508 `has_attr`. -/
def hasAttr (attrs : List Attr) (name : String) : Bool := attrs.any fun a => a.path.getLast? = some name

/-- engine/src/ast_discoverer.rs:522: the type is `Self`. -/
def isSelf (qself : Option SynType) (p : SynPath) : Bool :=
  match qself, p with
  | none, .mk [.mk i .none] => decide (i = "Self")
  | _, _ => false

mutual
/-- engine/src/ast_discoverer.rs:520-526 `SelfSubstituter`: `visit_type_mut` goes into every type, but not into a path.
Simplification: types inside bounds and lengths, which the type of a receiver does not have, are left alone. -/
def substSelf (recv : Ident) : SynType → SynType
  | .array t n => .array (substSelf recv t) n
  | .bareFn i o => .bareFn (substSelfs recv i) (substSelfOpt recv o)
  | .group t => .group (substSelf recv t)
  | .paren t => .paren (substSelf recv t)
  | .path q p => if isSelf q p then .path none (.mk [.mk recv .none]) else .path q p
  | .ptr t => .ptr (substSelf recv t)
  | .reference t => .reference (substSelf recv t)
  | .slice t => .slice (substSelf recv t)
  | .tuple l => .tuple (substSelfs recv l)
  | t => t
/-- `SelfSubstituter` on a list of types. -/
def substSelfs (recv : Ident) : List SynType → List SynType
  | [] => []
  | t :: r => substSelf recv t :: substSelfs recv r
/-- `SelfSubstituter` on a type which need not be there. -/
def substSelfOpt (recv : Ident) : Option SynType → Option SynType
  | none => none
  | some t => some (substSelf recv t)
end

/-- engine/src/ast_discoverer.rs:531-553 `add_receiver`. -/
def addReceiver (recv : Ident) : SynSig → Except DiscoveryErr SynSig
  | .mk _ _ [] _ => .error .noParameterOnMethod
  | .mk n g (.receiver t :: r) o => .ok (.mk n g (.typed (.ident "self" none) (substSelf recv t) :: r) o)
  | .mk n g (.typed p t :: r) o => .ok (.mk n g (.typed p t :: r) o)

def sigIdent : SynSig → Ident
  | .mk n _ _ _ => n

/-- engine/src/ast_discoverer.rs:110-129: the type whose methods an `impl` block has. The code keeps its path, which is
used only outside of modules, where it is this one identifier; so the assertion at line 345 holds. -/
def implReceiver : Option SynPath → SynType → Option Ident
  | some _, _ => none
  | none, .path _ (.mk [s]) => some (ident s)
  | none, _ => none

/-- engine/src/ast_discoverer.rs:338-354: a method offered to C++. `sigOf` is how the tokens of a signature are kept. -/
def noteMethod (sigOf : SynSig → RustSig) (mp : Option RustPath) (recv : Option Ident) (sig : SynSig)
    (d : Discoveries) : SearchResult :=
  match mp, recv with
  | some _, _ => .error .withinMod
  | none, none => .error .withoutClearReceiver
  | none, some r =>
    (addReceiver r sig).bind fun sig' =>
      .ok { d with
        rustFuns := d.rustFuns ++ [⟨deeperPath mp (sigIdent sig), sigOf sig', true⟩]
        rustTypes := d.rustTypes ++ [deeperPath mp r] }

section
variable (sigOf : SynSig → RustSig)

mutual
/-- engine/src/ast_discoverer.rs:164-177 `search_path`. -/
def searchPath (mp : Option RustPath) (d : Discoveries) : SynPath → SearchResult
  | .mk segs => searchSegs mp (notePath d segs) segs
/-- engine/src/ast_discoverer.rs:173-175: the arguments of each segment. -/
def searchSegs (mp : Option RustPath) (d : Discoveries) : List SynSeg → SearchResult
  | [] => .ok d
  | x :: r => (searchSeg mp d x).bind fun d => searchSegs mp d r
/-- engine/src/ast_discoverer.rs:174. -/
def searchSeg (mp : Option RustPath) (d : Discoveries) : SynSeg → SearchResult
  | .mk _ a => searchArgs mp d a
/-- engine/src/ast_discoverer.rs:464-497 `search_path_arguments`. -/
def searchArgs (mp : Option RustPath) (d : Discoveries) : SynArgs → SearchResult
  | .none => .ok d
  | .angle l => searchGArgs mp d l
  | .paren i o => (searchOptType mp d o).bind fun d => searchTypes mp d i
/-- engine/src/ast_discoverer.rs:471: the arguments in angle brackets. -/
def searchGArgs (mp : Option RustPath) (d : Discoveries) : List SynGArg → SearchResult
  | [] => .ok d
  | x :: r => (searchGArg mp d x).bind fun d => searchGArgs mp d r
/-- engine/src/ast_discoverer.rs:472-486: one argument in angle brackets. -/
def searchGArg (mp : Option RustPath) (d : Discoveries) : SynGArg → SearchResult
  | .lifetime => .ok d
  | .type t => searchType mp d t
  | .assocType _ t => searchType mp d t
  | .constraint _ b => searchBounds mp d b
  | .const e => searchExpr mp d e
  | .assocConst _ e => searchExpr mp d e
  | .other => .ok d
/-- engine/src/ast_discoverer.rs:444-454 and 425-429 `search_type_param_bounds`. -/
def searchBounds (mp : Option RustPath) (d : Discoveries) : List SynBound → SearchResult
  | [] => .ok d
  | x :: r => (searchBound mp d x).bind fun d => searchBounds mp d r
/-- engine/src/ast_discoverer.rs:449-451: one bound. -/
def searchBound (mp : Option RustPath) (d : Discoveries) : SynBound → SearchResult
  | .trait p => searchPath mp d p
  | .other => .ok d
/-- engine/src/ast_discoverer.rs:410-442 `search_type`. -/
def searchType (mp : Option RustPath) (d : Discoveries) : SynType → SearchResult
  | .array t _ => searchType mp d t
  | .group t => searchType mp d t
  | .paren t => searchType mp d t
  | .ptr t => searchType mp d t
  | .reference t => searchType mp d t
  | .slice t => searchType mp d t
  | .bareFn i o => (searchTypes mp d i).bind fun d => searchOptType mp d o
  | .implTrait b => searchBounds mp d b
  | .infer => .ok d
  | .mac _ => .ok d
  | .never => .ok d
  | .path _ p => searchPath mp d p
  | .traitObject b => searchBounds mp d b
  | .tuple l => searchTypes mp d l
  | .other => .ok d
/-- engine/src/ast_discoverer.rs:419-421, 435-437 and 491-493: several types. -/
def searchTypes (mp : Option RustPath) (d : Discoveries) : List SynType → SearchResult
  | [] => .ok d
  | x :: r => (searchType mp d x).bind fun d => searchTypes mp d r
/-- engine/src/ast_discoverer.rs:456-462 `search_return_type`. -/
def searchOptType (mp : Option RustPath) (d : Discoveries) : Option SynType → SearchResult
  | none => .ok d
  | some t => searchType mp d t
/-- engine/src/ast_discoverer.rs:363-408 `search_pat`. -/
def searchPat (mp : Option RustPath) (d : Discoveries) : SynPat → SearchResult
  | .const b => searchStmts mp d b
  | .reference p => searchPat mp d p
  | .ident _ _ => .ok d
  | .lit => .ok d
  | .mac _ => .ok d
  | .range _ _ => .ok d
  | .rest => .ok d
  | .paren p => searchPat mp d p
  | .or l => searchPats mp d l
  | .path _ p => searchPath mp d p
  | .slice l => searchPats mp d l
  | .tuple l => searchPats mp d l
  | .struct _ p l => (searchPath mp d p).bind fun d => searchPats mp d l
  | .tupleStruct _ p l => (searchPath mp d p).bind fun d => searchPats mp d l
  | .type p t => (searchPat mp d p).bind fun d => searchType mp d t
  | .wild => .ok d
  | .other => .ok d
/-- engine/src/ast_discoverer.rs:375-377, 382-384, 389-391 and 396-398: several patterns. -/
def searchPats (mp : Option RustPath) (d : Discoveries) : List SynPat → SearchResult
  | [] => .ok d
  | x :: r => (searchPat mp d x).bind fun d => searchPats mp d r
/-- engine/src/ast_discoverer.rs:212-312 `search_expr`. -/
def searchExpr (mp : Option RustPath) (d : Discoveries) : SynExpr → SearchResult
  | .path _ p => searchPath mp d p
  | .mac _ => .ok d
  | .infer => .ok d
  | .array l => searchExprs mp d l
  | .assign a b => (searchExpr mp d a).bind fun d => searchExpr mp d b
  | .binary a b => (searchExpr mp d a).bind fun d => searchExpr mp d b
  | .asyncBlock b => searchStmts mp d b
  | .awaitOn e => searchExpr mp d e
  | .field e => searchExpr mp d e
  | .block b => searchStmts mp d b
  | .const b => searchStmts mp d b
  | .breakWith e => searchOptExpr mp d e
  | .cast e _ => searchExpr mp d e
  | .group e => searchExpr mp d e
  | .paren e => searchExpr mp d e
  | .reference e => searchExpr mp d e
  | .tryOp e => searchExpr mp d e
  | .unary e => searchExpr mp d e
  | .call f l => (searchExpr mp d f).bind fun d => searchExprs mp d l
  | .closure _ _ e => searchExpr mp d e
  | .continueLoop => .ok d
  | .lit => .ok d
  | .forLoop _ e b => (searchExpr mp d e).bind fun d => searchStmts mp d b
  | .ite c t e => (searchExpr mp d c).bind fun d => (searchStmts mp d t).bind fun d => searchOptExpr mp d e
  | .index e i => (searchExpr mp d e).bind fun d => searchExpr mp d i
  | .letCond p e => (searchExpr mp d e).bind fun d => searchPat mp d p
  | .loop b => searchStmts mp d b
  | .matchOn e l => (searchExpr mp d e).bind fun d => searchArms mp d l
  | .methodCall e _ l => (searchExpr mp d e).bind fun d => searchExprs mp d l
  | .range a b => (searchOptExpr mp d a).bind fun d => searchOptExpr mp d b
  | .repeated e n => (searchExpr mp d e).bind fun d => searchExpr mp d n
  | .returnWith e => searchOptExpr mp d e
  | .struct _ _ l r => (searchExprs mp d l).bind fun d => searchOptExpr mp d r
  | .tryBlock b => searchStmts mp d b
  | .tuple l => searchExprs mp d l
  | .unsafeBlock b => searchStmts mp d b
  | .whileLoop c b => (searchExpr mp d c).bind fun d => searchStmts mp d b
  | .yieldWith e => searchOptExpr mp d e
  | .other => .ok d
/-- engine/src/ast_discoverer.rs:321-329 `search_exprs`. -/
def searchExprs (mp : Option RustPath) (d : Discoveries) : List SynExpr → SearchResult
  | [] => .ok d
  | x :: r => (searchExpr mp d x).bind fun d => searchExprs mp d r
/-- engine/src/ast_discoverer.rs:314-319 `search_option_expr`. -/
def searchOptExpr (mp : Option RustPath) (d : Discoveries) : Option SynExpr → SearchResult
  | none => .ok d
  | some e => searchExpr mp d e
/-- engine/src/ast_discoverer.rs:271-276: the arms of a `match`. -/
def searchArms (mp : Option RustPath) (d : Discoveries) : List SynArm → SearchResult
  | [] => .ok d
  | x :: r => (searchArm mp d x).bind fun d => searchArms mp d r
/-- engine/src/ast_discoverer.rs:272-275: an arm. -/
def searchArm (mp : Option RustPath) (d : Discoveries) : SynArm → SearchResult
  | .mk _ g b => (searchExpr mp d b).bind fun d => searchOptExpr mp d g
/-- engine/src/ast_discoverer.rs:198-210 `search_stmt`. -/
def searchStmt (mp : Option RustPath) (d : Discoveries) : SynStmt → SearchResult
  | .letStmt p i _ => (searchOptExpr mp d i).bind fun d => searchPat mp d p
  | .item i => searchItem mp d i
  | .expr e => searchExpr mp d e
  | .mac _ => .ok d
/-- engine/src/ast_discoverer.rs:188-196 `search_stmts`. -/
def searchStmts (mp : Option RustPath) (d : Discoveries) : List SynStmt → SearchResult
  | [] => .ok d
  | x :: r => (searchStmt mp d x).bind fun d => searchStmts mp d r
/-- engine/src/ast_discoverer.rs:92-100: the parameters of a function. -/
def searchInputs (mp : Option RustPath) (d : Discoveries) : List SynArg → SearchResult
  | [] => .ok d
  | x :: r => (searchInput mp d x).bind fun d => searchInputs mp d r
/-- engine/src/ast_discoverer.rs:93-99: a parameter of a function. -/
def searchInput (mp : Option RustPath) (d : Discoveries) : SynArg → SearchResult
  | .receiver _ => .ok d
  | .typed p t => (searchPat mp d p).bind fun d => searchType mp d t
/-- engine/src/ast_discoverer.rs:91-100: the types in the signature of a function. -/
def searchSig (mp : Option RustPath) (d : Discoveries) : SynSig → SearchResult
  | .mk _ _ i o => (searchOptType mp d o).bind fun d => searchInputs mp d i
/-- engine/src/ast_discoverer.rs:331-361 `search_impl_item`. -/
def searchImplItem (recv : Option Ident) (mp : Option RustPath) (d : Discoveries) : SynImplItem → SearchResult
  | .fn attrs sig b =>
    (if hasAttr attrs "extern_rust_function" then noteMethod sigOf mp recv sig d else .ok d).bind fun d =>
      searchStmts mp d b
  | _ => .ok d
/-- engine/src/ast_discoverer.rs:130-132: the items of an `impl` block. -/
def searchImplItems (recv : Option Ident) (mp : Option RustPath) (d : Discoveries) : List SynImplItem → SearchResult
  | [] => .ok d
  | x :: r => (searchImplItem recv mp d x).bind fun d => searchImplItems recv mp d r
/-- engine/src/ast_discoverer.rs:179-186 `search_trait_item`. -/
def searchTraitItem (mp : Option RustPath) (d : Discoveries) : SynTraitItem → SearchResult
  | .fn _ b => searchOptStmts mp d b
  | _ => .ok d
/-- engine/src/ast_discoverer.rs:181-183. -/
def searchOptStmts (mp : Option RustPath) (d : Discoveries) : Option (List SynStmt) → SearchResult
  | none => .ok d
  | some b => searchStmts mp d b
/-- engine/src/ast_discoverer.rs:147-149: the items of a trait. -/
def searchTraitItems (mp : Option RustPath) (d : Discoveries) : List SynTraitItem → SearchResult
  | [] => .ok d
  | x :: r => (searchTraitItem mp d x).bind fun d => searchTraitItems mp d r
/-- engine/src/ast_discoverer.rs:85-162 `search_item`. -/
def searchItem (mp : Option RustPath) (d : Discoveries) : SynItem → SearchResult
  | .fn attrs sig b =>
    (searchStmts mp d b).bind fun d => (searchSig mp d sig).bind fun d =>
      .ok (if hasAttr attrs "extern_rust_function" then
        { d with rustFuns := d.rustFuns ++ [⟨deeperPath mp (sigIdent sig), sigOf sig, false⟩] } else d)
  | .impl _ tr t l => searchImplItems (implReceiver tr t) mp d l
  | .mod n l => searchItems (some (deeperPath mp n)) d l
  | .trait _ _ l => searchTraitItems mp d l
  | .struct attrs n _ _ =>
    .ok (if hasAttr attrs "extern_rust_type" then { d with rustTypes := d.rustTypes ++ [deeperPath mp n] } else d)
  | .enum attrs n _ _ =>
    .ok (if hasAttr attrs "extern_rust_type" then { d with rustTypes := d.rustTypes ++ [deeperPath mp n] } else d)
  | _ => .ok d
/-- engine/src/ast_discoverer.rs:141-143: the items of a module. -/
def searchItems (mp : Option RustPath) (d : Discoveries) : List SynItem → SearchResult
  | [] => .ok d
  | x :: r => (searchItem mp d x).bind fun d => searchItems mp d r
end

end

end Syn

end Verif
