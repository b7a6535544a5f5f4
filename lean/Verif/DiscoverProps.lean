import Verif.Discover
import Verif.ParseFileProps

/-!
# C47: what is found by the search of Rust code

The specification says of every piece of syntax which parts it has, and which of them the search leaves out. A path is
found exactly if it is reached without going through a part which is left out.
-/

set_option autoImplicit false

namespace Verif

/-- A piece of Rust syntax. An item of an `impl` block goes with the type whose methods the block has, if this is one
identifier. -/
inductive SynNode where
  | path (p : SynPath)
  | args (a : SynArgs)
  | garg (a : SynGArg)
  | bound (b : SynBound)
  | type (t : SynType)
  | pat (p : SynPat)
  | expr (e : SynExpr)
  | arm (a : SynArm)
  | stmt (s : SynStmt)
  | input (a : SynArg)
  | sig (s : SynSig)
  | implItem (recv : Option Ident) (i : SynImplItem)
  | traitItem (i : SynTraitItem)
  | item (i : SynItem)

/-- The parts of a piece of syntax: those which the search looks at, and those which it leaves out. -/
structure SynParts where
  looked : List SynNode
  left : List SynNode := []

namespace SynNode

def types (l : List SynType) : List SynNode := l.map .type
def optType (o : Option SynType) : List SynNode := o.toList.map .type
def bounds (l : List SynBound) : List SynNode := l.map .bound
def paths (l : List SynPath) : List SynNode := l.map .path
def pats (l : List SynPat) : List SynNode := l.map .pat
def exprs (l : List SynExpr) : List SynNode := l.map .expr
def optExpr (o : Option SynExpr) : List SynNode := o.toList.map .expr
def stmts (l : List SynStmt) : List SynNode := l.map .stmt

/-- The arguments of the segments of a path. -/
def segArgs : List SynSeg → List SynNode
  | [] => []
  | .mk _ a :: r => .args a :: segArgs r

/-- The parts of a piece of syntax. -/
def parts : SynNode → SynParts
  | .path (.mk segs) => ⟨segArgs segs, []⟩
  | .args .none => ⟨[], []⟩
  | .args (.angle l) => ⟨l.map .garg, []⟩
  | .args (.paren i o) => ⟨optType o ++ types i, []⟩
  | .garg .lifetime => ⟨[], []⟩
  | .garg (.type t) => ⟨[.type t], []⟩
  | .garg (.const e) => ⟨[.expr e], []⟩
  | .garg (.assocType g t) => ⟨[.type t], [.args g]⟩
  | .garg (.assocConst g e) => ⟨[.expr e], [.args g]⟩
  | .garg (.constraint g b) => ⟨bounds b, [.args g]⟩
  | .garg .other => ⟨[], []⟩
  | .bound (.trait p) => ⟨[.path p], []⟩
  | .bound .other => ⟨[], []⟩
  | .type (.array t n) => ⟨[.type t], [.expr n]⟩
  | .type (.bareFn i o) => ⟨types i ++ optType o, []⟩
  | .type (.group t) => ⟨[.type t], []⟩
  | .type (.implTrait b) => ⟨bounds b, []⟩
  | .type .infer => ⟨[], []⟩
  | .type (.mac l) => ⟨[], paths l⟩
  | .type .never => ⟨[], []⟩
  | .type (.paren t) => ⟨[.type t], []⟩
  | .type (.path q p) => ⟨[.path p], optType q⟩
  | .type (.ptr t) => ⟨[.type t], []⟩
  | .type (.reference t) => ⟨[.type t], []⟩
  | .type (.slice t) => ⟨[.type t], []⟩
  | .type (.traitObject b) => ⟨bounds b, []⟩
  | .type (.tuple l) => ⟨types l, []⟩
  | .type .other => ⟨[], []⟩
  | .pat (.const b) => ⟨stmts b, []⟩
  | .pat (.ident _ s) => ⟨[], s.toList.map .pat⟩
  | .pat .lit => ⟨[], []⟩
  | .pat (.mac l) => ⟨[], paths l⟩
  | .pat (.or l) => ⟨pats l, []⟩
  | .pat (.paren p) => ⟨[.pat p], []⟩
  | .pat (.path q p) => ⟨[.path p], optType q⟩
  | .pat (.range a b) => ⟨[], optExpr a ++ optExpr b⟩
  | .pat (.reference p) => ⟨[.pat p], []⟩
  | .pat .rest => ⟨[], []⟩
  | .pat (.slice l) => ⟨pats l, []⟩
  | .pat (.struct q p l) => ⟨.path p :: pats l, optType q⟩
  | .pat (.tuple l) => ⟨pats l, []⟩
  | .pat (.tupleStruct q p l) => ⟨.path p :: pats l, optType q⟩
  | .pat (.type p t) => ⟨[.pat p, .type t], []⟩
  | .pat .wild => ⟨[], []⟩
  | .pat .other => ⟨[], []⟩
  | .expr (.array l) => ⟨exprs l, []⟩
  | .expr (.assign a b) => ⟨[.expr a, .expr b], []⟩
  | .expr (.asyncBlock b) => ⟨stmts b, []⟩
  | .expr (.awaitOn e) => ⟨[.expr e], []⟩
  | .expr (.binary a b) => ⟨[.expr a, .expr b], []⟩
  | .expr (.block b) => ⟨stmts b, []⟩
  | .expr (.breakWith e) => ⟨optExpr e, []⟩
  | .expr (.call f l) => ⟨.expr f :: exprs l, []⟩
  | .expr (.cast e t) => ⟨[.expr e], [.type t]⟩
  | .expr (.closure i o e) => ⟨[.expr e], pats i ++ optType o⟩
  | .expr (.const b) => ⟨stmts b, []⟩
  | .expr .continueLoop => ⟨[], []⟩
  | .expr (.field e) => ⟨[.expr e], []⟩
  | .expr (.forLoop p e b) => ⟨.expr e :: stmts b, [.pat p]⟩
  | .expr (.group e) => ⟨[.expr e], []⟩
  | .expr (.ite c t e) => ⟨.expr c :: (stmts t ++ optExpr e), []⟩
  | .expr (.index e i) => ⟨[.expr e, .expr i], []⟩
  | .expr .infer => ⟨[], []⟩
  | .expr (.letCond p e) => ⟨[.expr e, .pat p], []⟩
  | .expr .lit => ⟨[], []⟩
  | .expr (.loop b) => ⟨stmts b, []⟩
  | .expr (.mac l) => ⟨[], paths l⟩
  | .expr (.matchOn e l) => ⟨.expr e :: l.map .arm, []⟩
  | .expr (.methodCall e t l) => ⟨.expr e :: exprs l, [.args t]⟩
  | .expr (.paren e) => ⟨[.expr e], []⟩
  | .expr (.path q p) => ⟨[.path p], optType q⟩
  | .expr (.range a b) => ⟨optExpr a ++ optExpr b, []⟩
  | .expr (.reference e) => ⟨[.expr e], []⟩
  | .expr (.repeated e n) => ⟨[.expr e, .expr n], []⟩
  | .expr (.returnWith e) => ⟨optExpr e, []⟩
  | .expr (.struct q p l r) => ⟨exprs l ++ optExpr r, optType q ++ [.path p]⟩
  | .expr (.tryOp e) => ⟨[.expr e], []⟩
  | .expr (.tryBlock b) => ⟨stmts b, []⟩
  | .expr (.tuple l) => ⟨exprs l, []⟩
  | .expr (.unary e) => ⟨[.expr e], []⟩
  | .expr (.unsafeBlock b) => ⟨stmts b, []⟩
  | .expr (.whileLoop c b) => ⟨.expr c :: stmts b, []⟩
  | .expr (.yieldWith e) => ⟨optExpr e, []⟩
  | .expr .other => ⟨[], []⟩
  | .arm (.mk p g b) => ⟨.expr b :: optExpr g, [.pat p]⟩
  | .stmt (.letStmt p i o) => ⟨optExpr i ++ [.pat p], optExpr o⟩
  | .stmt (.item i) => ⟨[.item i], []⟩
  | .stmt (.expr e) => ⟨[.expr e], []⟩
  | .stmt (.mac l) => ⟨[], paths l⟩
  | .input (.receiver t) => ⟨[], [.type t]⟩
  | .input (.typed p t) => ⟨[.pat p, .type t], []⟩
  | .sig (.mk _ g i o) => ⟨optType o ++ i.map .input, bounds g⟩
  | .implItem _ (.fn _ s b) => ⟨stmts b, [.sig s]⟩
  | .implItem _ (.const t e) => ⟨[], [.type t, .expr e]⟩
  | .implItem _ (.type t) => ⟨[], [.type t]⟩
  | .implItem _ (.mac l) => ⟨[], paths l⟩
  | .implItem _ .other => ⟨[], []⟩
  | .traitItem (.fn s b) => ⟨stmts (b.getD []), [.sig s]⟩
  | .traitItem (.const t e) => ⟨[], .type t :: optExpr e⟩
  | .traitItem (.type b t) => ⟨[], bounds b ++ optType t⟩
  | .traitItem (.mac l) => ⟨[], paths l⟩
  | .traitItem .other => ⟨[], []⟩
  | .item (.const t e) => ⟨[], [.type t, .expr e]⟩
  | .item (.enum _ _ g l) => ⟨[], bounds g ++ types l⟩
  | .item (.fn _ s b) => ⟨stmts b ++ [.sig s], []⟩
  | .item (.foreignMod l) => ⟨[], l.map .sig⟩
  | .item (.impl g tr t l) =>
    ⟨l.map (.implItem (match tr, t with
      | none, .path _ (.mk [.mk n _]) => some n
      | _, _ => none)), bounds g ++ tr.toList.map .path ++ [.type t]⟩
  | .item (.mac l) => ⟨[], paths l⟩
  | .item (.mod _ l) => ⟨l.map .item, []⟩
  | .item (.modDecl _) => ⟨[], []⟩
  | .item (.static t e) => ⟨[], [.type t, .expr e]⟩
  | .item (.struct _ _ g l) => ⟨[], bounds g ++ types l⟩
  | .item (.trait g s l) => ⟨l.map .traitItem, bounds g ++ bounds s⟩
  | .item (.type t) => ⟨[], [.type t]⟩
  | .item (.union g l) => ⟨[], bounds g ++ types l⟩
  | .item (.use p) => ⟨[], [.path p]⟩
  | .item .other => ⟨[], []⟩

/-- The module in which the parts of a piece of syntax are. -/
def inMod (mp : Option RustPath) : SynNode → Option RustPath
  | .item (.mod n _) => some (mp.getD [] ++ [n])
  | _ => mp

/-- A piece of syntax is reached from another, in some module, by going to parts which the search looks at. -/
inductive Reached : Option RustPath → SynNode → Option RustPath → SynNode → Prop
  | here (mp : Option RustPath) (n : SynNode) : Reached mp n mp n
  | part {mp mp' : Option RustPath} {n m k : SynNode} (hm : m ∈ n.parts.looked) (h : Reached (inMod mp n) m mp' k) :
    Reached mp n mp' k

/-- A piece of syntax is within another. -/
inductive Within : SynNode → SynNode → Prop
  | here (n : SynNode) : Within n n
  | part {n m k : SynNode} (hm : m ∈ n.parts.looked ∨ m ∈ n.parts.left) (h : Within m k) : Within n k

end SynNode

/-- The item of a module: its name, or its path within the module. -/
structure FfiUse (p : SynPath) (name : String) : Prop where
  path : ∃ a rest, p = .mk (.mk "ffi" a :: rest) ∧ name = joinCC (rest.map Syn.ident)

/-- What a search may find. -/
inductive Discovery where
  | cpp (name : String)
  | fn (f : RustFun)
  | type (p : RustPath)
  | error (e : DiscoveryErr)

/-- An attribute with this name, whatever its path. -/
def Marked (attrs : List Attr) (name : String) : Prop := ∃ a ∈ attrs, ∃ pre, a.path = pre ++ [name]

/-- The receiver of a method is written out with the type, if it is a receiver; a method has a parameter. -/
inductive Receives (r : Ident) : SynSig → SynSig → Prop
  | self {n : Ident} {g : List SynBound} {t : SynType} {l : List SynArg} {o : Option SynType} :
    Receives r (.mk n g (.receiver t :: l) o)
      (.mk n g (.typed (.ident "self" none) (Syn.substSelf r t) :: l) o)
  | typed {n : Ident} {g : List SynBound} {p : SynPat} {t : SynType} {l : List SynArg} {o : Option SynType} :
    Receives r (.mk n g (.typed p t :: l) o) (.mk n g (.typed p t :: l) o)

/-- What is noted of a piece of syntax, in a module. -/
inductive Notes (sigOf : SynSig → RustSig) : Option RustPath → SynNode → Discovery → Prop
  | cpp {mp : Option RustPath} {p : SynPath} {name : String} (h : FfiUse p name) : Notes sigOf mp (.path p) (.cpp name)
  | fn {mp : Option RustPath} {attrs : List Attr} {n : Ident} {g : List SynBound} {i : List SynArg} {o : Option SynType}
    {b : List SynStmt} (h : Marked attrs "extern_rust_function") :
    Notes sigOf mp (.item (.fn attrs (.mk n g i o) b)) (.fn ⟨mp.getD [] ++ [n], sigOf (.mk n g i o), false⟩)
  | struct {mp : Option RustPath} {attrs : List Attr} {n : Ident} {g : List SynBound} {l : List SynType}
    (h : Marked attrs "extern_rust_type") : Notes sigOf mp (.item (.struct attrs n g l)) (.type (mp.getD [] ++ [n]))
  | enum {mp : Option RustPath} {attrs : List Attr} {n : Ident} {g : List SynBound} {l : List SynType}
    (h : Marked attrs "extern_rust_type") : Notes sigOf mp (.item (.enum attrs n g l)) (.type (mp.getD [] ++ [n]))
  | method {attrs : List Attr} {n r : Ident} {g : List SynBound} {i : List SynArg} {o : Option SynType} {s : SynSig}
    {b : List SynStmt} (h : Marked attrs "extern_rust_function") (hs : Receives r (.mk n g i o) s) :
    Notes sigOf none (.implItem (some r) (.fn attrs (.mk n g i o) b)) (.fn ⟨[n], sigOf s, true⟩)
  | methodType {attrs : List Attr} {r : Ident} {s s' : SynSig} {b : List SynStmt}
    (h : Marked attrs "extern_rust_function") (hs : Receives r s s') :
    Notes sigOf none (.implItem (some r) (.fn attrs s b)) (.type [r])
  | withinMod {mp : Option RustPath} {recv : Option Ident} {attrs : List Attr} {s : SynSig} {b : List SynStmt}
    (h : Marked attrs "extern_rust_function") (hm : mp ≠ none) :
    Notes sigOf mp (.implItem recv (.fn attrs s b)) (.error .withinMod)
  | unclear {attrs : List Attr} {s : SynSig} {b : List SynStmt} (h : Marked attrs "extern_rust_function") :
    Notes sigOf none (.implItem none (.fn attrs s b)) (.error .withoutClearReceiver)
  | noParameter {attrs : List Attr} {n r : Ident} {g : List SynBound} {o : Option SynType} {b : List SynStmt}
    (h : Marked attrs "extern_rust_function") :
    Notes sigOf none (.implItem (some r) (.fn attrs (.mk n g [] o) b)) (.error .noParameterOnMethod)

/-- What is noted of the pieces of syntax which are reached. -/
def Discovers (sigOf : SynSig → RustSig) (mp : Option RustPath) (n : SynNode) (x : Discovery) : Prop :=
  ∃ mp' k, SynNode.Reached mp n mp' k ∧ Notes sigOf mp' k x

/-! ## Running a search -/

/-- The result of a search which ought to find just these things. -/
def Ran (E : Discovery → Prop) (d : Discoveries) : SearchResult → Prop
  | .ok d' => (∀ s, s ∈ d'.cppList ↔ s ∈ d.cppList ∨ E (.cpp s)) ∧ (∀ f, f ∈ d'.rustFuns ↔ f ∈ d.rustFuns ∨ E (.fn f)) ∧
    (∀ p, p ∈ d'.rustTypes ↔ p ∈ d.rustTypes ∨ E (.type p)) ∧ ∀ e, ¬ E (.error e)
  | .error e => E (.error e)

theorem Ran.congr {E F : Discovery → Prop} {d : Discoveries} {r : SearchResult} (h : Ran E d r) (he : ∀ x, E x ↔ F x) :
    Ran F d r := by
  cases r with
  | error e => exact (he _).1 h
  | ok d' => simpa only [Ran, he] using h

theorem Ran.none (d : Discoveries) : Ran (fun _ => False) d (.ok d) := by simp [Ran]

theorem Ran.bind {E F : Discovery → Prop} {d : Discoveries} {r : SearchResult} {f : Discoveries → SearchResult} (h : Ran E d r)
    (hf : ∀ d, Ran F d (f d)) : Ran (fun x => E x ∨ F x) d (r.bind f) := by
  cases r with
  | error e => exact .inl h
  | ok d' =>
    have h' := hf d'
    change Ran _ d (f d')
    cases hd : f d' with
    | error e => rw [hd] at h'; exact .inr h'
    | ok d'' =>
      rw [hd] at h'
      obtain ⟨a1, a2, a3, a4⟩ := h
      obtain ⟨b1, b2, b3, b4⟩ := h'
      exact ⟨fun s => by rw [b1, a1, or_assoc], fun s => by rw [b2, a2, or_assoc], fun s => by rw [b3, a3, or_assoc],
        fun e => fun | .inl h => a4 e h | .inr h => b4 e h⟩

/-- A search which finds just what there is in some pieces of syntax, and adds it to what was found before. -/
structure Runs (sigOf : SynSig → RustSig) (mp : Option RustPath) (l : List SynNode) (F : Discoveries → SearchResult) :
    Prop where
  adds : ∀ d, F d = (F {}).map d.extend
  finds : ∀ d, Ran (fun x => ∃ m ∈ l, Discovers sigOf mp m x) d (F d)

theorem discovers_iff (sigOf : SynSig → RustSig) (mp : Option RustPath) (n : SynNode) (x : Discovery) :
    Discovers sigOf mp n x ↔
      Notes sigOf mp n x ∨ ∃ m ∈ n.parts.looked, Discovers sigOf (n.inMod mp) m x := by
  constructor
  · rintro ⟨mp', k, h, hx⟩
    cases h with
    | here => exact .inl hx
    | part hm h => exact .inr ⟨_, hm, _, _, h, hx⟩
  · rintro (h | ⟨m, hm, _, _, h, hx⟩)
    · exact ⟨_, _, .here _ _, h⟩
    · exact ⟨_, _, .part hm h, hx⟩

theorem adds_bind {F G : Discoveries → SearchResult} (hF : ∀ d, F d = (F {}).map d.extend)
    (hG : ∀ d, G d = (G {}).map d.extend) (d : Discoveries) :
    (F d).bind G = ((F {}).bind G).map d.extend := by
  rw [hF d]
  cases h : F {} with
  | error e => rfl
  | ok d1 =>
    change G (d.extend d1) = (G d1).map d.extend
    rw [hG (d.extend d1), hG d1]
    cases G {} with
    | error e => rfl
    | ok d2 => exact congrArg Except.ok (extend_assoc d d1 d2)

/-! ## The search finds just what is reached -/

theorem hasAttr_iff (attrs : List Attr) (name : String) : Syn.hasAttr attrs name = true ↔ Marked attrs name := by
  unfold Syn.hasAttr Marked
  simp only [List.any_eq_true, decide_eq_true_eq, List.getLast?_eq_some_iff]

section
open Syn
variable {sigOf : SynSig → RustSig} {mp : Option RustPath}

theorem Runs.nil (mp : Option RustPath) : Runs sigOf mp [] fun d => .ok d :=
  ⟨fun d => by simp [Except.map, extend_empty], fun d => (Ran.none d).congr fun x => by simp⟩

theorem Runs.append {a b : List SynNode} {F G : Discoveries → SearchResult} (h : Runs sigOf mp a F)
    (h' : Runs sigOf mp b G) : Runs sigOf mp (a ++ b) fun d => (F d).bind G :=
  ⟨adds_bind h.adds h'.adds, fun d => (Ran.bind (h.finds d) h'.finds).congr fun x => by
    simp [or_and_right, exists_or]⟩

theorem Runs.cons {a : SynNode} {b : List SynNode} {F G : Discoveries → SearchResult} (h : Runs sigOf mp [a] F)
    (h' : Runs sigOf mp b G) : Runs sigOf mp (a :: b) fun d => (F d).bind G := Runs.append (a := [a]) h h'

/-- A piece of syntax of which itself nothing is noted. -/
theorem Runs.node {n : SynNode} {F : Discoveries → SearchResult} (hn : ∀ x, ¬ Notes sigOf mp n x)
    (h : Runs sigOf (n.inMod mp) n.parts.looked F) : Runs sigOf mp [n] F :=
  ⟨h.adds, fun d => (h.finds d).congr fun x => by
    simp only [List.mem_singleton, exists_eq_left]
    rw [discovers_iff]
    simp only [hn, false_or]⟩

/-- A piece of syntax of which something is noted first. -/
theorem Runs.noted {n : SynNode} {N F : Discoveries → SearchResult} (h0 : ∀ d, Ran (Notes sigOf mp n) d (N d))
    (ha : ∀ d, N d = (N {}).map d.extend) (h : Runs sigOf (n.inMod mp) n.parts.looked F) :
    Runs sigOf mp [n] fun d => (N d).bind F :=
  ⟨adds_bind ha h.adds, fun d => (Ran.bind (h0 d) h.finds).congr fun x => by
    simp only [List.mem_singleton, exists_eq_left]
    exact (discovers_iff sigOf mp _ x).symm⟩

/-- A piece of syntax of which something is noted last. -/
theorem Runs.noted_after {n : SynNode} {N F : Discoveries → SearchResult} (h : Runs sigOf (n.inMod mp) n.parts.looked F)
    (h0 : ∀ d, Ran (Notes sigOf mp n) d (N d)) (ha : ∀ d, N d = (N {}).map d.extend) :
    Runs sigOf mp [n] fun d => (F d).bind N :=
  ⟨adds_bind h.adds ha, fun d => (Ran.bind (h.finds d) h0).congr fun x => by
    simp only [List.mem_singleton, exists_eq_left]
    exact or_comm.trans (discovers_iff sigOf mp _ x).symm⟩

variable (sigOf)

/-- A path is noted, and then what is in its arguments. -/
theorem Runs.path {segs : List SynSeg} {F : Discoveries → SearchResult}
    (h : Runs sigOf mp (SynNode.segArgs segs) F) : Runs sigOf mp [.path (.mk segs)] fun d => F (notePath d segs) := by
  refine Runs.noted (n := .path (.mk segs)) (N := fun d => .ok (notePath d segs)) (fun d => ?_) (fun d => ?_) h
  · have hno : ∀ x, Notes sigOf mp (.path (.mk segs)) x ↔
        ∃ a rest, segs = .mk "ffi" a :: rest ∧ x = .cpp (joinCC (rest.map ident)) := by
      intro x
      constructor
      · rintro ⟨a, rest, e, rfl⟩
        cases e
        exact ⟨a, rest, rfl, rfl⟩
      · rintro ⟨a, rest, rfl, rfl⟩
        exact .cpp ⟨⟨_, _, rfl, rfl⟩⟩
    refine Ran.congr (E := fun x => ∃ a rest, segs = .mk "ffi" a :: rest ∧ x = .cpp (joinCC (rest.map ident))) ?_
      fun x => (hno x).symm
    match segs with
    | [] => simp [Ran, notePath]
    | .mk n a :: rest =>
      unfold notePath
      by_cases hn : n = "ffi"
      · subst hn
        simp [Ran, ident, insertNew_mem]
        exact fun s => or_congr_right ⟨fun e => ⟨_, _, ⟨rfl, rfl⟩, e⟩, fun ⟨_, _, ⟨rfl, rfl⟩, e⟩ => e⟩
      · simp [Ran, ident, hn]
  · match segs with
    | [] => simp [notePath, Except.map, extend_empty]
    | .mk n a :: rest =>
      simp only [notePath]
      split <;> simp [Except.map, Discoveries.extend, insertNew]

theorem notes_struct (attrs : List Attr) (n : Ident) (g : List SynBound) (l : List SynType) (x : Discovery) :
    Notes sigOf mp (.item (.struct attrs n g l)) x ↔
      hasAttr attrs "extern_rust_type" = true ∧ x = .type (mp.getD [] ++ [n]) := by
  rw [hasAttr_iff]
  exact ⟨fun h => by cases h with | struct h => exact ⟨h, rfl⟩, fun ⟨h, e⟩ => e ▸ .struct h⟩

theorem notes_enum (attrs : List Attr) (n : Ident) (g : List SynBound) (l : List SynType) (x : Discovery) :
    Notes sigOf mp (.item (.enum attrs n g l)) x ↔
      hasAttr attrs "extern_rust_type" = true ∧ x = .type (mp.getD [] ++ [n]) := by
  rw [hasAttr_iff]
  exact ⟨fun h => by cases h with | enum h => exact ⟨h, rfl⟩, fun ⟨h, e⟩ => e ▸ .enum h⟩

theorem Runs.type {n : SynNode} {attrs : List Attr} {i : Ident} (hp : n.parts.looked = [])
    (hn : ∀ x, Notes sigOf mp n x ↔ hasAttr attrs "extern_rust_type" = true ∧ x = .type (mp.getD [] ++ [i])) :
    Runs sigOf mp [n] fun d => .ok (if hasAttr attrs "extern_rust_type" then
      { d with rustTypes := d.rustTypes ++ [deeperPath mp i] } else d) := by
  refine Runs.noted (F := fun d => .ok d) (N := fun d => .ok _) (fun d => ?_) (fun d => ?_) (hp ▸ .nil _)
  · refine Ran.congr ?_ fun x => (hn x).symm
    rw [deeperPath_eq]
    cases hasAttr attrs "extern_rust_type" <;> simp [Ran]
  · cases hasAttr attrs "extern_rust_type" <;> simp [Except.map, Discoveries.extend]

theorem Runs.fn {attrs : List Attr} {s : SynSig} {b : List SynStmt} {F G : Discoveries → SearchResult}
    (h : Runs sigOf mp (SynNode.stmts b ++ [.sig s]) fun d => (F d).bind G) :
    Runs sigOf mp [.item (.fn attrs s b)] fun d => (F d).bind fun d => (G d).bind fun d =>
      .ok (if hasAttr attrs "extern_rust_function" then
        { d with rustFuns := d.rustFuns ++ [⟨deeperPath mp (sigIdent s), sigOf s, false⟩] } else d) := by
  let N : Discoveries → SearchResult := fun d => .ok (if hasAttr attrs "extern_rust_function" then
        { d with rustFuns := d.rustFuns ++ [⟨deeperPath mp (sigIdent s), sigOf s, false⟩] } else d)
  have e : (fun d => (F d).bind fun d => (G d).bind N) = fun d => ((F d).bind G).bind N := by
    funext d
    cases F d <;> rfl
  change Runs sigOf mp _ fun d => (F d).bind fun d => (G d).bind N
  rw [e]
  refine Runs.noted_after (n := .item (.fn attrs s b)) h (fun d => ?_) fun d => ?_
  · obtain ⟨n, g, i, o⟩ := s
    have hno : ∀ x, Notes sigOf mp (.item (.fn attrs (.mk n g i o) b)) x ↔
        hasAttr attrs "extern_rust_function" = true ∧ x = .fn ⟨mp.getD [] ++ [n], sigOf (.mk n g i o), false⟩ := fun x => by
      rw [hasAttr_iff]
      exact ⟨fun h => by cases h with | fn h => exact ⟨h, rfl⟩, fun ⟨h, e⟩ => e ▸ .fn h⟩
    refine Ran.congr ?_ fun x => (hno x).symm
    simp only [N, deeperPath_eq]
    cases hasAttr attrs "extern_rust_function" <;> simp [Ran, sigIdent]
  · simp only [N]
    cases hasAttr attrs "extern_rust_function" <;> simp [Except.map, Discoveries.extend]

theorem receives_iff (r : Ident) (s s' : SynSig) : addReceiver r s = .ok s' ↔ Receives r s s' := by
  constructor
  · intro h
    unfold addReceiver at h
    split at h <;> cases h
    · exact .self
    · exact .typed
  · rintro (_ | _) <;> rfl

theorem Runs.method {recv : Option Ident} {attrs : List Attr} {s : SynSig} {b : List SynStmt}
    {F : Discoveries → SearchResult} (h : Runs sigOf mp (SynNode.stmts b) F) :
    Runs sigOf mp [.implItem recv (.fn attrs s b)] fun d =>
      (if hasAttr attrs "extern_rust_function" then noteMethod sigOf mp recv s d else .ok d).bind F := by
  refine Runs.noted (n := .implItem recv (.fn attrs s b)) (fun d => ?_) (fun d => ?_) h
  · by_cases ha : Marked attrs "extern_rust_function"
    · rw [if_pos ((hasAttr_iff _ _).2 ha)]
      match mp, recv with
      | some m, recv => exact .withinMod ha nofun
      | none, none => exact .unclear ha
      | none, some r =>
        change Ran _ d ((addReceiver r s).bind _)
        cases hs : addReceiver r s with
        | error e =>
          unfold addReceiver at hs
          split at hs <;> cases hs
          exact .noParameter ha
        | ok s' =>
          have hr := (receives_iff r s s').1 hs
          have hno : ∀ x, Notes sigOf none (.implItem (some r) (.fn attrs s b)) x ↔
              x = .fn ⟨[sigIdent s], sigOf s', true⟩ ∨ x = .type [r] := fun x => by
            constructor
            · intro h
              cases h with
              | method h hs' =>
                rw [(receives_iff _ _ _).2 hs'] at hs
                cases hs
                exact .inl rfl
              | methodType h => exact .inr rfl
              | withinMod h hm => exact absurd rfl hm
              | noParameter h => cases hr
            · rintro (rfl | rfl)
              · obtain ⟨n, g, i, o⟩ := s
                exact .method ha hr
              · exact .methodType ha hr
          refine Ran.congr ?_ fun x => (hno x).symm
          simp [Ran, Except.bind, deeperPath]
    · rw [if_neg (fun h => ha ((hasAttr_iff _ _).1 h))]
      refine (Ran.none d).congr fun x => ⟨False.elim, fun h => ha ?_⟩
      cases h <;> assumption
  · cases hasAttr attrs "extern_rust_function" with
    | false => simp [Except.map, extend_empty]
    | true =>
      simp only [if_true]
      match mp, recv with
      | some m, recv => rfl
      | none, none => rfl
      | none, some r =>
        change (addReceiver r s).bind _ = ((addReceiver r s).bind _).map _
        cases addReceiver r s <;> simp [Except.map, Except.bind, Discoveries.extend]

theorem impl_looked (g : List SynBound) (tr : Option SynPath) (t : SynType) (l : List SynImplItem) :
    (SynNode.item (.impl g tr t l)).parts.looked = l.map (.implItem (implReceiver tr t)) := by
  cases tr with
  | some _ => rfl
  | none =>
    cases t <;> try rfl
    rename_i q p
    obtain ⟨segs⟩ := p
    match segs with
    | [] => rfl
    | [.mk _ _] => rfl
    | .mk _ _ :: _ :: _ => rfl

/-- Finish a case in which nothing is noted of the piece of syntax itself. -/
macro "plain" : tactic => `(tactic| refine Runs.node (fun _ h => by cases h) ?_)

mutual
theorem ran_path (mp : Option RustPath) : (p : SynPath) → Runs sigOf mp [.path p] fun d => searchPath sigOf mp d p
  | .mk segs => by
    simp only [searchPath]
    exact Runs.path sigOf (ran_segs mp segs)
theorem ran_segs (mp : Option RustPath) : (l : List SynSeg) →
    Runs sigOf mp (SynNode.segArgs l) fun d => searchSegs sigOf mp d l
  | [] => by simp only [searchSegs]; exact .nil _
  | .mk n a :: r => by
    simp only [searchSegs, searchSeg]
    exact .cons (ran_args mp a) (ran_segs mp r)
theorem ran_args (mp : Option RustPath) : (a : SynArgs) → Runs sigOf mp [.args a] fun d => searchArgs sigOf mp d a
  | .none => by simp only [searchArgs]; plain; exact .nil _
  | .angle l => by simp only [searchArgs]; plain; exact ran_gargs mp l
  | .paren i o => by simp only [searchArgs]; plain; exact .append (ran_optType mp o) (ran_types mp i)
theorem ran_gargs (mp : Option RustPath) : (l : List SynGArg) →
    Runs sigOf mp (l.map .garg) fun d => searchGArgs sigOf mp d l
  | [] => by simp only [searchGArgs]; exact .nil _
  | x :: r => by simp only [searchGArgs]; exact .cons (ran_garg mp x) (ran_gargs mp r)
theorem ran_garg (mp : Option RustPath) : (a : SynGArg) → Runs sigOf mp [.garg a] fun d => searchGArg sigOf mp d a
  | .lifetime => by simp only [searchGArg]; plain; exact .nil _
  | .type t => by simp only [searchGArg]; plain; exact ran_type mp t
  | .const e => by simp only [searchGArg]; plain; exact ran_expr mp e
  | .assocType _ t => by simp only [searchGArg]; plain; exact ran_type mp t
  | .assocConst _ e => by simp only [searchGArg]; plain; exact ran_expr mp e
  | .constraint _ b => by simp only [searchGArg]; plain; exact ran_bounds mp b
  | .other => by simp only [searchGArg]; plain; exact .nil _
theorem ran_bounds (mp : Option RustPath) : (l : List SynBound) →
    Runs sigOf mp (SynNode.bounds l) fun d => searchBounds sigOf mp d l
  | [] => by simp only [searchBounds]; exact .nil _
  | x :: r => by simp only [searchBounds]; exact .cons (ran_bound mp x) (ran_bounds mp r)
theorem ran_bound (mp : Option RustPath) : (b : SynBound) → Runs sigOf mp [.bound b] fun d => searchBound sigOf mp d b
  | .trait p => by simp only [searchBound]; plain; exact ran_path mp p
  | .other => by simp only [searchBound]; plain; exact .nil _
theorem ran_type (mp : Option RustPath) : (t : SynType) → Runs sigOf mp [.type t] fun d => searchType sigOf mp d t
  | .array t _ => by simp only [searchType]; plain; exact ran_type mp t
  | .bareFn i o => by simp only [searchType]; plain; exact .append (ran_types mp i) (ran_optType mp o)
  | .group t => by simp only [searchType]; plain; exact ran_type mp t
  | .implTrait b => by simp only [searchType]; plain; exact ran_bounds mp b
  | .infer => by simp only [searchType]; plain; exact .nil _
  | .mac _ => by simp only [searchType]; plain; exact .nil _
  | .never => by simp only [searchType]; plain; exact .nil _
  | .paren t => by simp only [searchType]; plain; exact ran_type mp t
  | .path _ p => by simp only [searchType]; plain; exact ran_path mp p
  | .ptr t => by simp only [searchType]; plain; exact ran_type mp t
  | .reference t => by simp only [searchType]; plain; exact ran_type mp t
  | .slice t => by simp only [searchType]; plain; exact ran_type mp t
  | .traitObject b => by simp only [searchType]; plain; exact ran_bounds mp b
  | .tuple l => by simp only [searchType]; plain; exact ran_types mp l
  | .other => by simp only [searchType]; plain; exact .nil _
theorem ran_types (mp : Option RustPath) : (l : List SynType) →
    Runs sigOf mp (SynNode.types l) fun d => searchTypes sigOf mp d l
  | [] => by simp only [searchTypes]; exact .nil _
  | x :: r => by simp only [searchTypes]; exact .cons (ran_type mp x) (ran_types mp r)
theorem ran_optType (mp : Option RustPath) : (o : Option SynType) →
    Runs sigOf mp (SynNode.optType o) fun d => searchOptType sigOf mp d o
  | none => by simp only [searchOptType]; exact .nil _
  | some t => by simp only [searchOptType]; exact ran_type mp t
theorem ran_pat (mp : Option RustPath) : (p : SynPat) → Runs sigOf mp [.pat p] fun d => searchPat sigOf mp d p
  | .const b => by simp only [searchPat]; plain; exact ran_stmts mp b
  | .ident _ _ => by simp only [searchPat]; plain; exact .nil _
  | .lit => by simp only [searchPat]; plain; exact .nil _
  | .mac _ => by simp only [searchPat]; plain; exact .nil _
  | .or l => by simp only [searchPat]; plain; exact ran_pats mp l
  | .paren p => by simp only [searchPat]; plain; exact ran_pat mp p
  | .path _ p => by simp only [searchPat]; plain; exact ran_path mp p
  | .range _ _ => by simp only [searchPat]; plain; exact .nil _
  | .reference p => by simp only [searchPat]; plain; exact ran_pat mp p
  | .rest => by simp only [searchPat]; plain; exact .nil _
  | .slice l => by simp only [searchPat]; plain; exact ran_pats mp l
  | .struct _ p l => by simp only [searchPat]; plain; exact .cons (ran_path mp p) (ran_pats mp l)
  | .tuple l => by simp only [searchPat]; plain; exact ran_pats mp l
  | .tupleStruct _ p l => by simp only [searchPat]; plain; exact .cons (ran_path mp p) (ran_pats mp l)
  | .type p t => by simp only [searchPat]; plain; exact .cons (ran_pat mp p) (ran_type mp t)
  | .wild => by simp only [searchPat]; plain; exact .nil _
  | .other => by simp only [searchPat]; plain; exact .nil _
theorem ran_pats (mp : Option RustPath) : (l : List SynPat) →
    Runs sigOf mp (SynNode.pats l) fun d => searchPats sigOf mp d l
  | [] => by simp only [searchPats]; exact .nil _
  | x :: r => by simp only [searchPats]; exact .cons (ran_pat mp x) (ran_pats mp r)
theorem ran_expr (mp : Option RustPath) : (e : SynExpr) → Runs sigOf mp [.expr e] fun d => searchExpr sigOf mp d e
  | .array l => by simp only [searchExpr]; plain; exact ran_exprs mp l
  | .assign a b => by simp only [searchExpr]; plain; exact .cons (ran_expr mp a) (ran_expr mp b)
  | .asyncBlock b => by simp only [searchExpr]; plain; exact ran_stmts mp b
  | .awaitOn e => by simp only [searchExpr]; plain; exact ran_expr mp e
  | .binary a b => by simp only [searchExpr]; plain; exact .cons (ran_expr mp a) (ran_expr mp b)
  | .block b => by simp only [searchExpr]; plain; exact ran_stmts mp b
  | .breakWith e => by simp only [searchExpr]; plain; exact ran_optExpr mp e
  | .call f l => by simp only [searchExpr]; plain; exact .cons (ran_expr mp f) (ran_exprs mp l)
  | .cast e _ => by simp only [searchExpr]; plain; exact ran_expr mp e
  | .closure _ _ e => by simp only [searchExpr]; plain; exact ran_expr mp e
  | .const b => by simp only [searchExpr]; plain; exact ran_stmts mp b
  | .continueLoop => by simp only [searchExpr]; plain; exact .nil _
  | .field e => by simp only [searchExpr]; plain; exact ran_expr mp e
  | .forLoop _ e b => by simp only [searchExpr]; plain; exact .cons (ran_expr mp e) (ran_stmts mp b)
  | .group e => by simp only [searchExpr]; plain; exact ran_expr mp e
  | .ite c t e => by
    simp only [searchExpr]; plain
    exact .cons (ran_expr mp c) (.append (ran_stmts mp t) (ran_optExpr mp e))
  | .index e i => by simp only [searchExpr]; plain; exact .cons (ran_expr mp e) (ran_expr mp i)
  | .infer => by simp only [searchExpr]; plain; exact .nil _
  | .letCond p e => by simp only [searchExpr]; plain; exact .cons (ran_expr mp e) (ran_pat mp p)
  | .lit => by simp only [searchExpr]; plain; exact .nil _
  | .loop b => by simp only [searchExpr]; plain; exact ran_stmts mp b
  | .mac _ => by simp only [searchExpr]; plain; exact .nil _
  | .matchOn e l => by simp only [searchExpr]; plain; exact .cons (ran_expr mp e) (ran_arms mp l)
  | .methodCall e _ l => by simp only [searchExpr]; plain; exact .cons (ran_expr mp e) (ran_exprs mp l)
  | .paren e => by simp only [searchExpr]; plain; exact ran_expr mp e
  | .path _ p => by simp only [searchExpr]; plain; exact ran_path mp p
  | .range a b => by simp only [searchExpr]; plain; exact .append (ran_optExpr mp a) (ran_optExpr mp b)
  | .reference e => by simp only [searchExpr]; plain; exact ran_expr mp e
  | .repeated e n => by simp only [searchExpr]; plain; exact .cons (ran_expr mp e) (ran_expr mp n)
  | .returnWith e => by simp only [searchExpr]; plain; exact ran_optExpr mp e
  | .struct _ _ l r => by simp only [searchExpr]; plain; exact .append (ran_exprs mp l) (ran_optExpr mp r)
  | .tryOp e => by simp only [searchExpr]; plain; exact ran_expr mp e
  | .tryBlock b => by simp only [searchExpr]; plain; exact ran_stmts mp b
  | .tuple l => by simp only [searchExpr]; plain; exact ran_exprs mp l
  | .unary e => by simp only [searchExpr]; plain; exact ran_expr mp e
  | .unsafeBlock b => by simp only [searchExpr]; plain; exact ran_stmts mp b
  | .whileLoop c b => by simp only [searchExpr]; plain; exact .cons (ran_expr mp c) (ran_stmts mp b)
  | .yieldWith e => by simp only [searchExpr]; plain; exact ran_optExpr mp e
  | .other => by simp only [searchExpr]; plain; exact .nil _
theorem ran_exprs (mp : Option RustPath) : (l : List SynExpr) →
    Runs sigOf mp (SynNode.exprs l) fun d => searchExprs sigOf mp d l
  | [] => by simp only [searchExprs]; exact .nil _
  | x :: r => by simp only [searchExprs]; exact .cons (ran_expr mp x) (ran_exprs mp r)
theorem ran_optExpr (mp : Option RustPath) : (o : Option SynExpr) →
    Runs sigOf mp (SynNode.optExpr o) fun d => searchOptExpr sigOf mp d o
  | none => by simp only [searchOptExpr]; exact .nil _
  | some e => by simp only [searchOptExpr]; exact ran_expr mp e
theorem ran_arms (mp : Option RustPath) : (l : List SynArm) →
    Runs sigOf mp (l.map .arm) fun d => searchArms sigOf mp d l
  | [] => by simp only [searchArms]; exact .nil _
  | x :: r => by simp only [searchArms]; exact .cons (ran_arm mp x) (ran_arms mp r)
theorem ran_arm (mp : Option RustPath) : (a : SynArm) → Runs sigOf mp [.arm a] fun d => searchArm sigOf mp d a
  | .mk _ g b => by simp only [searchArm]; plain; exact .cons (ran_expr mp b) (ran_optExpr mp g)
theorem ran_stmt (mp : Option RustPath) : (s : SynStmt) → Runs sigOf mp [.stmt s] fun d => searchStmt sigOf mp d s
  | .letStmt p i _ => by simp only [searchStmt]; plain; exact .append (ran_optExpr mp i) (ran_pat mp p)
  | .item i => by simp only [searchStmt]; plain; exact ran_item mp i
  | .expr e => by simp only [searchStmt]; plain; exact ran_expr mp e
  | .mac _ => by simp only [searchStmt]; plain; exact .nil _
theorem ran_stmts (mp : Option RustPath) : (l : List SynStmt) →
    Runs sigOf mp (SynNode.stmts l) fun d => searchStmts sigOf mp d l
  | [] => by simp only [searchStmts]; exact .nil _
  | x :: r => by simp only [searchStmts]; exact .cons (ran_stmt mp x) (ran_stmts mp r)
theorem ran_inputs (mp : Option RustPath) : (l : List SynArg) →
    Runs sigOf mp (l.map .input) fun d => searchInputs sigOf mp d l
  | [] => by simp only [searchInputs]; exact .nil _
  | x :: r => by simp only [searchInputs]; exact .cons (ran_input mp x) (ran_inputs mp r)
theorem ran_input (mp : Option RustPath) : (a : SynArg) → Runs sigOf mp [.input a] fun d => searchInput sigOf mp d a
  | .receiver _ => by simp only [searchInput]; plain; exact .nil _
  | .typed p t => by simp only [searchInput]; plain; exact .cons (ran_pat mp p) (ran_type mp t)
theorem ran_sig (mp : Option RustPath) : (s : SynSig) → Runs sigOf mp [.sig s] fun d => searchSig sigOf mp d s
  | .mk _ _ i o => by simp only [searchSig]; plain; exact .append (ran_optType mp o) (ran_inputs mp i)
theorem ran_implItem (recv : Option Ident) (mp : Option RustPath) : (i : SynImplItem) →
    Runs sigOf mp [.implItem recv i] fun d => searchImplItem sigOf recv mp d i
  | .fn attrs s b => by
    simp only [searchImplItem]
    exact Runs.method sigOf (ran_stmts mp b)
  | .const _ _ => by simp only [searchImplItem]; plain; exact .nil _
  | .type _ => by simp only [searchImplItem]; plain; exact .nil _
  | .mac _ => by simp only [searchImplItem]; plain; exact .nil _
  | .other => by simp only [searchImplItem]; plain; exact .nil _
theorem ran_implItems (recv : Option Ident) (mp : Option RustPath) : (l : List SynImplItem) →
    Runs sigOf mp (l.map (.implItem recv)) fun d => searchImplItems sigOf recv mp d l
  | [] => by simp only [searchImplItems]; exact .nil _
  | x :: r => by simp only [searchImplItems]; exact .cons (ran_implItem recv mp x) (ran_implItems recv mp r)
theorem ran_traitItem (mp : Option RustPath) : (i : SynTraitItem) →
    Runs sigOf mp [.traitItem i] fun d => searchTraitItem sigOf mp d i
  | .fn _ b => by simp only [searchTraitItem]; plain; exact ran_optStmts mp b
  | .const _ _ => by simp only [searchTraitItem]; plain; exact .nil _
  | .type _ _ => by simp only [searchTraitItem]; plain; exact .nil _
  | .mac _ => by simp only [searchTraitItem]; plain; exact .nil _
  | .other => by simp only [searchTraitItem]; plain; exact .nil _
theorem ran_optStmts (mp : Option RustPath) : (o : Option (List SynStmt)) →
    Runs sigOf mp (SynNode.stmts (o.getD [])) fun d => searchOptStmts sigOf mp d o
  | none => by simp only [searchOptStmts]; exact .nil _
  | some b => by simp only [searchOptStmts]; exact ran_stmts mp b
theorem ran_traitItems (mp : Option RustPath) : (l : List SynTraitItem) →
    Runs sigOf mp (l.map .traitItem) fun d => searchTraitItems sigOf mp d l
  | [] => by simp only [searchTraitItems]; exact .nil _
  | x :: r => by simp only [searchTraitItems]; exact .cons (ran_traitItem mp x) (ran_traitItems mp r)
theorem ran_item (mp : Option RustPath) : (i : SynItem) → Runs sigOf mp [.item i] fun d => searchItem sigOf mp d i
  | .const _ _ => by simp only [searchItem]; plain; exact .nil _
  | .enum attrs n g l => by simp only [searchItem]; exact Runs.type sigOf rfl (notes_enum sigOf attrs n g l)
  | .fn attrs s b => by
    simp only [searchItem]
    exact Runs.fn sigOf (.append (ran_stmts mp b) (ran_sig mp s))
  | .foreignMod _ => by simp only [searchItem]; plain; exact .nil _
  | .impl g tr t l => by
    simp only [searchItem]; plain
    rw [impl_looked]
    exact ran_implItems (implReceiver tr t) mp l
  | .mac _ => by simp only [searchItem]; plain; exact .nil _
  | .mod n l => by
    simp only [searchItem, deeperPath_eq]; plain
    exact ran_items (some (mp.getD [] ++ [n])) l
  | .modDecl _ => by simp only [searchItem]; plain; exact .nil _
  | .static _ _ => by simp only [searchItem]; plain; exact .nil _
  | .struct attrs n g l => by simp only [searchItem]; exact Runs.type sigOf rfl (notes_struct sigOf attrs n g l)
  | .trait _ _ l => by simp only [searchItem]; plain; exact ran_traitItems mp l
  | .type _ => by simp only [searchItem]; plain; exact .nil _
  | .union _ _ => by simp only [searchItem]; plain; exact .nil _
  | .use _ => by simp only [searchItem]; plain; exact .nil _
  | .other => by simp only [searchItem]; plain; exact .nil _
theorem ran_items (mp : Option RustPath) : (l : List SynItem) →
    Runs sigOf mp (l.map .item) fun d => searchItems sigOf mp d l
  | [] => by simp only [searchItems]; exact .nil _
  | x :: r => by simp only [searchItems]; exact .cons (ran_item mp x) (ran_items mp r)
end

end

end Verif
