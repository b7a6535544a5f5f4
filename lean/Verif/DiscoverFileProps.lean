import Verif.DiscoverProps
import Verif.ParseItemsProps

/-!
# C47: what automatic discovery asks for

What the search of an item finds, what becomes of it in the block of the file, and the uses of C++ items which are missed.
-/

set_option autoImplicit false

namespace Verif

open SynNode

/-- The search of items of Rust code, as parsing a file uses it. -/
def rustSearch (sigOf : SynSig → RustSig) : Search SynItem := fun mp i d => Syn.searchItem sigOf mp d i

theorem rustSearch_additive (sigOf : SynSig → RustSig) : Additive (rustSearch sigOf) :=
  fun mp i d => (ran_item sigOf mp i).adds d

/-- A path of the module `ffi` is in a piece of syntax, in a place which the search looks at. -/
def Uses (mp : Option RustPath) (i : SynItem) (name : String) : Prop :=
  ∃ mp' p, Reached mp (.item i) mp' (.path p) ∧ FfiUse p name

/-- A path of the module `ffi` is in a piece of syntax, anywhere. -/
def Contains (n : SynNode) (name : String) : Prop := ∃ p, Within n (.path p) ∧ FfiUse p name

theorem notes_cpp {sigOf : SynSig → RustSig} {mp : Option RustPath} {k : SynNode} {name : String} :
    Notes sigOf mp k (.cpp name) ↔ ∃ p, k = .path p ∧ FfiUse p name :=
  ⟨fun | .cpp h => ⟨_, rfl, h⟩, fun ⟨_, e, h⟩ => e ▸ .cpp h⟩

theorem discovers_cpp {sigOf : SynSig → RustSig} {mp : Option RustPath} {i : SynItem} {name : String} :
    Discovers sigOf mp (.item i) (.cpp name) ↔ Uses mp i name := by
  constructor
  · rintro ⟨mp', k, h, hx⟩
    obtain ⟨p, rfl, hp⟩ := notes_cpp.1 hx
    exact ⟨mp', p, h, hp⟩
  · rintro ⟨mp', p, h, hp⟩
    exact ⟨mp', _, h, .cpp hp⟩

/-- **C47**: what the search of an item finds. The names asked for are just those of the paths of the module `ffi` which
are reached, and the functions and types offered to C++ are just the marked ones which are reached. -/
theorem search_exact {sigOf : SynSig → RustSig} {mp : Option RustPath} {i : SynItem} {d : Discoveries}
    (h : Syn.searchItem sigOf mp {} i = .ok d) :
    (∀ name, name ∈ d.cppList ↔ Uses mp i name) ∧
    (∀ f, f ∈ d.rustFuns ↔ Discovers sigOf mp (.item i) (.fn f)) ∧
    (∀ p, p ∈ d.rustTypes ↔ Discovers sigOf mp (.item i) (.type p)) := by
  have hr := (ran_item sigOf mp i).finds {}
  rw [h] at hr
  simp only [List.mem_singleton, exists_eq_left] at hr
  obtain ⟨h1, h2, h3, -⟩ := hr
  exact ⟨fun s => by simpa [discovers_cpp] using h1 s, fun f => by simpa using h2 f, fun p => by simpa using h3 p⟩

/-- **C47**: the search of an item fails exactly if a method is reached which cannot be offered to C++. -/
theorem search_fails_iff {sigOf : SynSig → RustSig} {mp : Option RustPath} {i : SynItem} :
    (∃ e, Syn.searchItem sigOf mp {} i = .error e) ↔ ∃ e, Discovers sigOf mp (.item i) (.error e) := by
  have hr := (ran_item sigOf mp i).finds {}
  simp only [List.mem_singleton, exists_eq_left] at hr
  cases h : Syn.searchItem sigOf mp {} i with
  | error e =>
    rw [h] at hr
    exact ⟨fun _ => ⟨e, hr⟩, fun _ => ⟨e, rfl⟩⟩
  | ok d =>
    rw [h] at hr
    exact ⟨fun ⟨e, he⟩ => (by cases he), fun ⟨e, he⟩ => absurd he (hr.2.2.2 e)⟩

/-- The error given is one of those which are there. -/
theorem search_error {sigOf : SynSig → RustSig} {mp : Option RustPath} {i : SynItem} {e : DiscoveryErr}
    (h : Syn.searchItem sigOf mp {} i = .error e) : Discovers sigOf mp (.item i) (.error e) := by
  have hr := (ran_item sigOf mp i).finds {}
  rw [h] at hr
  simp only [List.mem_singleton, exists_eq_left] at hr
  exact hr

theorem SynNode.Reached.within {mp mp' : Option RustPath} {n k : SynNode} (h : Reached mp n mp' k) : Within n k := by
  induction h with
  | here => exact .here _
  | part hm _ ih => exact .part (.inl hm) ih

/-- **C47 (nothing else)**: a name is asked for only if the item has a path of the module `ffi` with this name. -/
theorem found_is_used {sigOf : SynSig → RustSig} {mp : Option RustPath} {i : SynItem} {d : Discoveries}
    (h : Syn.searchItem sigOf mp {} i = .ok d) {name : String} (hn : name ∈ d.cppList) : Contains (.item i) name := by
  obtain ⟨_, p, hr, hp⟩ := ((search_exact h).1 name).1 hn
  exact ⟨p, hr.within, hp⟩

theorem SynNode.Within.trans {a b c : SynNode} (h : Within a b) (h' : Within b c) : Within a c := by
  induction h with
  | here => exact h'
  | part hm _ ih => exact .part hm (ih h')

/-- **C47 (every use), partial**: every use is found if none is within a part which the search leaves out. The full
statement fails: see the witnesses below. -/
theorem every_use_found_partial {sigOf : SynSig → RustSig} {mp : Option RustPath} {i : SynItem} {d : Discoveries}
    (h : Syn.searchItem sigOf mp {} i = .ok d) {name : String} (hu : Contains (.item i) name)
    (hleft : ∀ n m, Within (.item i) n → m ∈ n.parts.left → ¬ Contains m name) : name ∈ d.cppList := by
  refine ((search_exact h).1 name).2 ?_
  obtain ⟨p, hw, hp⟩ := hu
  have key : ∀ {n k : SynNode}, Within n k → ∀ mp, (∀ a m, Within n a → m ∈ a.parts.left → ¬ Contains m name) →
      k = .path p → ∃ mp', Reached mp n mp' k := by
    intro n k hw
    induction hw with
    | here n => exact fun mp _ _ => ⟨mp, .here _ _⟩
    | @part n m k hm hw ih =>
      intro mp hl hk
      rcases hm with hm | hm
      · obtain ⟨mp', hr⟩ := ih (n.inMod mp) (fun a m' ha => hl a m' (.part (.inl hm) ha)) hk
        exact ⟨mp', .part hm hr⟩
      · exact absurd ⟨p, hk ▸ hw, hp⟩ (hl n m (.here _) hm)
  obtain ⟨mp', hr⟩ := key hw mp hleft rfl
  exact ⟨mp', p, hr, hp⟩

/-! ## Files -/

/-- A path of the module `ffi` is in a file, in a place which the search looks at. -/
def FileUses (items : List (FileItem SynItem)) (name : String) : Prop :=
  ∃ x ∈ itemsSearched none items, Uses x.1 x.2 name

/-- An entry of the allowlist which a block at the top of the file has of its own. -/
def InBlock (items : List (FileItem SynItem)) (en : AllowlistEntry) : Prop :=
  ∃ body c l, Found.block true body ∈ itemsBlocks true items ∧ parseConfig body = .ok c ∧
    (c.allowlist = .unspecified l ∨ c.allowlist = .specific l) ∧ en ∈ l

theorem file_discovers {sigOf : SynSig → RustSig} {ρ : Type} {auto : Bool} {items : List (FileItem SynItem)}
    {st : FileState ρ SynItem} (h : parseItems (rustSearch sigOf) auto none FileState.empty items = .ok st) (name : String) :
    name ∈ st.discoveries.cppList ↔ FileUses items name := by
  obtain ⟨-, ds, h1, -, -, -, h2⟩ := parse_file_discovers (rustSearch_additive sigOf) h
  rw [h2]
  constructor
  · rintro ⟨d, hd, hn⟩
    obtain ⟨x, hx, hf⟩ := h1.right hd
    exact ⟨x, hx, ((search_exact hf).1 name).1 hn⟩
  · rintro ⟨x, hx, hu⟩
    obtain ⟨d, hd, hf⟩ := h1.left hx
    exact ⟨d, hd, ((search_exact hf).1 name).2 hu⟩

/-- **C47 (files)**: if a file which is accepted uses C++ items, there is a block at its top whose allowlist has all the
names used, and otherwise only what the block has of its own. -/
theorem auto_allowlist_exact {sigOf : SynSig → RustSig} {ρ : Type} {items : List (FileItem SynItem)}
    {segs : List (Segment ρ SynItem)} (h : parseFile (rustSearch sigOf) true items = .ok segs)
    (hu : ∃ name, FileUses items name) :
    ∃ e l, Placed.engine true e ∈ segPlaced true segs ∧ e.config.allowlist = .specific l ∧
      (∀ name, FileUses items name → .item name ∈ l) ∧
      (∀ en ∈ l, (∃ name, FileUses items name ∧ en = .item name) ∨ InBlock items en) := by
  obtain ⟨st, hst, -, h2⟩ := parse_file_blocks h
  have hd := file_discovers hst
  obtain ⟨n0, hn0⟩ := hu
  have hne : st.discoveries.cppList ≠ [] := fun e => by
    have := (hd n0).2 hn0
    rw [e] at this
    cases this
  have hm : mustHandle true st = true := by
    unfold mustHandle Discoveries.foundAllowlist
    cases hl : st.discoveries.cppList with
    | nil => exact absurd hl hne
    | cons a r => simp
  have att : ∀ {c c' : Config}, Attached true st.extraSuperclasses st.discoveries c c' →
      ∃ l, (c.allowlist = .unspecified l ∨ c.allowlist = .specific l) ∧
        c'.confirmComplete.allowlist = .specific (l ++ st.discoveries.cppList.map .item) := by
    rintro c c' ⟨a, ha, rfl⟩
    rw [if_pos rfl] at ha
    rcases ha with ⟨he, -⟩ | ⟨-, l, hl, rfl⟩
    · exact absurd he hne
    · exact ⟨l, hl, by simp [Config.confirmComplete]⟩
  have names : ∀ l : List AllowlistEntry, ∀ name, FileUses items name →
      .item name ∈ l ++ st.discoveries.cppList.map .item := fun l name hn =>
    List.mem_append.2 (.inr (List.mem_map.2 ⟨name, (hd name).2 hn, rfl⟩))
  have only : ∀ l : List AllowlistEntry, (∀ en ∈ l, InBlock items en) →
      ∀ en ∈ l ++ st.discoveries.cppList.map .item,
        (∃ name, FileUses items name ∧ en = .item name) ∨ InBlock items en := fun l hl en hen => by
    rcases List.mem_append.1 hen with he | he
    · exact .inr (hl en he)
    · obtain ⟨name, hn, rfl⟩ := List.mem_map.1 he
      exact .inl ⟨name, (hd name).1 hn, rfl⟩
  rcases h2 hm with ⟨body, c, c', hb, hc, -, ha, hall⟩ | ⟨c', placed, hb, ha, -, hp⟩
  · obtain ⟨l, hl, hl'⟩ := att ha
    have hmem : Found.block true body ∈ itemsBlocks true items := by
      have : body ∈ (itemsBlocks true items).filterMap Found.topBody := by rw [hb]; exact List.mem_singleton.2 rfl
      obtain ⟨f, hf, he⟩ := List.mem_filterMap.1 this
      match f, he with
      | .block true _, rfl => exact hf
    obtain ⟨e, he, hbec⟩ := hall.left hmem
    cases hbec with
    | top _ hx =>
      subst hx
      exact ⟨_, _, he, hl', names l, only l fun en hen => ⟨body, c, l, hmem, hc, hl, hen⟩⟩
  · obtain ⟨l, hl, hl'⟩ := att ha
    have : l = [] := by
      rcases hl with hl | hl
      · cases hl; rfl
      · cases hl
    subst this
    exact ⟨_, _, hp ▸ List.mem_append.2 (.inr (List.mem_singleton.2 rfl)), hl', names [], only [] nofun⟩

/-- **C47 and C50**: every path of the module `ffi` which is found has to be the C++ name of something bindgen found, or
parsing is refused. -/
theorem used_must_be_found {sigOf : SynSig → RustSig} {ρ : Type} {items : List (FileItem SynItem)}
    {segs : List (Segment ρ SynItem)} (h : parseFile (rustSearch sigOf) true items = .ok segs)
    (hu : ∃ name, FileUses items name) :
    ∃ e, Placed.engine true e ∈ segPlaced true segs ∧
      ∀ hash sigOf' cb bindgen v, parseBindgenItems hash sigOf' e.config cb bindgen = some (.ok v) →
        ∀ name, FileUses items name → ∃ a ∈ v.apis, a.name.toCppName = name := by
  obtain ⟨e, l, he, hl, hn, -⟩ := auto_allowlist_exact h hu
  exact ⟨e, he, fun hash sigOf' cb bindgen v hv name hname =>
    directives_obeyed hash sigOf' e.config cb bindgen v hv name (.inl ⟨l, hl, hn name hname⟩)⟩

/-! ## Witnesses -/

instance : DecidableEq SearchResult
  | .ok a, .ok b => if h : a = b then isTrue (h ▸ rfl) else isFalse fun e => h (by cases e; rfl)
  | .error a, .error b => if h : a = b then isTrue (h ▸ rfl) else isFalse fun e => h (by cases e; rfl)
  | .ok _, .error _ => isFalse nofun
  | .error _, .ok _ => isFalse nofun

/-- The path `ffi::A`. -/
def exFfi (n : Ident) : SynPath := .mk [.mk "ffi" .none, .mk n .none]

/-- The type `ffi::A`. -/
def exFfiType (n : Ident) : SynType := .path none (exFfi n)

/-- A function with this body. -/
def exRustFn (b : List SynStmt) : SynItem := .fn [] (.mk "f" [] [] none) b

/-- A signature without its types. -/
def exSigOf : SynSig → RustSig := fun s => ⟨Syn.sigIdent s, "()", none⟩

theorem exFfi_use (n : Ident) : FfiUse (exFfi n) n := ⟨⟨.none, [.mk n .none], rfl, by simp [joinCC, Syn.ident]⟩⟩

/-- Uses of `ffi::A` which are found: called, in a parameter's type, within another type's arguments, in a pattern, in a
closure's body, in a function of a module, in a method's body. -/
example : ∀ i ∈ [
    exRustFn [.expr (.call (.path none (exFfi "A")) [])],
    SynItem.fn [] (.mk "f" [] [.typed (.ident "x" none) (.reference (exFfiType "A"))] none) [],
    SynItem.fn [] (.mk "f" [] [] (some (.path none (.mk [.mk "UniquePtr" (.angle [.type (exFfiType "A")])])))) [],
    exRustFn [.letStmt (.tupleStruct none (exFfi "A") [.wild]) (some .lit) none],
    exRustFn [.expr (.closure [] none (.path none (exFfi "A")))],
    .mod "m" [exRustFn [.expr (.path none (exFfi "A"))]],
    .impl [] none (.path none (.mk [.mk "T" .none])) [.fn [] (.mk "g" [] [] none) [.expr (.path none (exFfi "A"))]]],
    Syn.searchItem exSigOf none {} i = .ok { cppList := ["A"] } := by
  decide +kernel

/-- The places in which a use of `ffi::A` is missed. -/
def exMissed : List SynItem := [
  .struct [] "S" [] [exFfiType "A"],
  .enum [] "S" [] [exFfiType "A"],
  .union [] [exFfiType "A"],
  .use (exFfi "A"),
  .type (exFfiType "A"),
  .static (exFfiType "A") .lit,
  .const (exFfiType "A") .lit,
  .const .infer (.call (.path none (exFfi "A")) []),
  .mac [exFfi "A"],
  .impl [] none (exFfiType "A") [],
  .impl [] (some (exFfi "A")) .infer [],
  .impl [] none (.path none (.mk [.mk "T" .none])) [.fn [] (.mk "g" [] [.typed .wild (exFfiType "A")] none) []],
  .impl [] none (.path none (.mk [.mk "T" .none])) [.fn [] (.mk "g" [] [] (some (exFfiType "A"))) []],
  .impl [] none (.path none (.mk [.mk "T" .none])) [.type (exFfiType "A")],
  .trait [] [] [.fn (.mk "g" [] [.typed .wild (exFfiType "A")] none) none],
  .trait [] [.trait (exFfi "A")] [],
  .fn [] (.mk "f" [.trait (exFfi "A")] [] none) [],
  exRustFn [.mac [exFfi "A"]],
  exRustFn [.expr (.mac [exFfi "A"])],
  exRustFn [.expr (.cast .lit (exFfiType "A"))],
  exRustFn [.expr (.struct none (exFfi "A") [] none)],
  exRustFn [.expr (.closure [.type .wild (exFfiType "A")] none .lit)],
  exRustFn [.expr (.matchOn .lit [.mk (.path none (exFfi "A")) none .lit])],
  exRustFn [.expr (.forLoop (.tupleStruct none (exFfi "A") []) .lit [])],
  exRustFn [.expr (.methodCall .lit (.angle [.type (exFfiType "A")]) [])],
  exRustFn [.expr (.path (some (exFfiType "A")) (.mk [.mk "Tr" .none, .mk "g" .none]))],
  exRustFn [.letStmt .wild (some .lit) (some (.path none (exFfi "A")))],
  exRustFn [.letStmt (.type .wild (.array .infer (.path none (exFfi "A")))) none none],
  exRustFn [.letStmt (.ident "x" (some (.path none (exFfi "A")))) none none],
  exRustFn [.letStmt (.range (some (.path none (exFfi "A"))) none) none none]]

/-- **C47 fails**: a C++ item used in any of these places is not asked for. -/
theorem used_but_missed_false : ∀ i ∈ exMissed,
    Contains (.item i) "A" ∧ Syn.searchItem exSigOf none {} i = .ok {} := by
  have hA : FfiUse (exFfi "A") "A" := exFfi_use "A"
  have hp : Within (.path (exFfi "A")) (.path (exFfi "A")) := .here _
  have ht : Within (.type (exFfiType "A")) (.path (exFfi "A")) := .part (.inl (.head _)) hp
  have he : Within (.expr (.path none (exFfi "A"))) (.path (exFfi "A")) := .part (.inl (.head _)) hp
  have hq : Within (.pat (.path none (exFfi "A"))) (.path (exFfi "A")) := .part (.inl (.head _)) hp
  have hfn : ∀ s n, Within (.stmt s) n → Within (.item (exRustFn [s])) n := fun s n h => .part (.inl (.head _)) h
  have hex : ∀ e n, Within (.expr e) n → Within (.item (exRustFn [.expr e])) n := fun e n h =>
    hfn _ _ (.part (.inl (.head _)) h)
  have hlet : ∀ p n, Within (.pat p) n → Within (.item (exRustFn [.letStmt p none none])) n := fun e n h =>
    hfn _ _ (.part (.inl (.head _)) h)
  have hs : ∀ g n, Within (.sig (.mk g [] [.typed .wild (exFfiType "A")] none)) (.path (exFfi "A")) ∧
      Within (.sig (.mk n [] [] (some (exFfiType "A")))) (.path (exFfi "A")) := fun g n =>
    ⟨.part (.inl (.head _)) (.part (.inl (.tail _ (.head _))) ht), .part (.inl (.head _)) ht⟩
  suffices hw : ∀ i ∈ exMissed, Within (.item i) (.path (exFfi "A")) by
    refine fun i hi => ⟨⟨_, hw i hi, hA⟩, ?_⟩
    revert i
    have : ∀ i ∈ exMissed, Syn.searchItem exSigOf none {} i = .ok {} := by decide +kernel
    exact this
  have each : ∀ (p : SynItem → Prop) (a : SynItem) (l : List SynItem), p a → (∀ i ∈ l, p i) → ∀ i ∈ a :: l, p i :=
    fun p a l ha hl i hi => by
      rcases List.mem_cons.1 hi with rfl | hi
      · exact ha
      · exact hl i hi
  refine each _ _ _ (.part (.inr (.head _)) ht) ?_
  refine each _ _ _ (.part (.inr (.head _)) ht) ?_
  refine each _ _ _ (.part (.inr (.head _)) ht) ?_
  refine each _ _ _ (.part (.inr (.head _)) hp) ?_
  refine each _ _ _ (.part (.inr (.head _)) ht) ?_
  refine each _ _ _ (.part (.inr (.head _)) ht) ?_
  refine each _ _ _ (.part (.inr (.head _)) ht) ?_
  refine each _ _ _ (.part (.inr (.tail _ (.head _))) (.part (.inl (.head _)) he)) ?_
  refine each _ _ _ (.part (.inr (.head _)) hp) ?_
  refine each _ _ _ (.part (.inr (.head _)) ht) ?_
  refine each _ _ _ (.part (.inr (.head _)) hp) ?_
  refine each _ _ _ (.part (.inl (.head _)) (.part (.inr (.head _)) (hs _ "").1)) ?_
  refine each _ _ _ (.part (.inl (.head _)) (.part (.inr (.head _)) (hs "" _).2)) ?_
  refine each _ _ _ (.part (.inl (.head _)) (.part (.inr (.head _)) ht)) ?_
  refine each _ _ _ (.part (.inl (.head _)) (.part (.inr (.head _)) (hs _ "").1)) ?_
  refine each _ _ _ (.part (.inr (.head _)) (.part (.inl (.head _)) hp)) ?_
  refine each _ _ _ (.part (.inl (.head _)) (.part (.inr (.head _)) (.part (.inl (.head _)) hp))) ?_
  refine each _ _ _ (hfn _ _ (.part (.inr (.head _)) hp)) ?_
  refine each _ _ _ (hex _ _ (.part (.inr (.head _)) hp)) ?_
  refine each _ _ _ (hex _ _ (.part (.inr (.head _)) ht)) ?_
  refine each _ _ _ (hex _ _ (.part (.inr (.head _)) hp)) ?_
  refine each _ _ _ (hex _ _ (.part (.inr (.head _)) (.part (.inl (.tail _ (.head _))) ht))) ?_
  refine each _ _ _ (hex _ _ (.part (.inl (.tail _ (.head _))) (.part (.inr (.head _)) hq))) ?_
  refine each _ _ _ (hex _ _ (.part (.inr (.head _)) (.part (.inl (.head _)) hp))) ?_
  refine each _ _ _ (hex _ _ (.part (.inr (.head _)) (.part (.inl (.head _)) (.part (.inl (.head _)) ht)))) ?_
  refine each _ _ _ (hex _ _ (.part (.inr (.head _)) ht)) ?_
  refine each _ _ _ (hfn _ _ (.part (.inr (.head _)) he)) ?_
  refine each _ _ _ (hlet _ _ (.part (.inl (.tail _ (.head _))) (.part (.inr (.head _)) he))) ?_
  refine each _ _ _ (hlet _ _ (.part (.inr (.head _)) hq)) ?_
  refine each _ _ _ (hlet _ _ (.part (.inr (.head _)) he)) ?_
  exact nofun

/-- A use of a local variable called `ffi`. -/
def exLocalFfi : SynItem := exRustFn [.expr (.methodCall (.path none (.mk [.mk "ffi" .none])) .none [])]

/-- A use of an associated function of a C++ class. -/
def exAssociated : SynItem :=
  exRustFn [.expr (.call (.path none (.mk [.mk "ffi" .none, .mk "A" .none, .mk "new" .none])) [])]

/-- A use of the module as `crate::ffi::A`, and the use of a block which has been given another name. -/
def exOtherPaths : SynItem :=
  exRustFn [.expr (.path none (.mk [.mk "crate" .none, .mk "ffi" .none, .mk "A" .none])),
    .expr (.path none (.mk [.mk "other" .none, .mk "A" .none]))]

/-- **C47 fails**: a local variable called `ffi` counts as a use of an item with an empty name. An associated function
of a class is asked for by a name which only the function `new` of a namespace `A` has. A use of the module through a
longer path, or of a module with another name, is not found. -/
theorem found_names_false :
    Syn.searchItem exSigOf none {} exLocalFfi = .ok { cppList := [""] } ∧
    Syn.searchItem exSigOf none {} exAssociated = .ok { cppList := ["A::new"] } ∧
    Syn.searchItem exSigOf none {} exOtherPaths = .ok {} := by
  decide +kernel

/-- **C47 fails**: a file in which a local variable is called `ffi` is refused whatever bindgen finds, unless it finds
something without a name. -/
theorem local_variable_refused_false {segs : List (Segment Nat SynItem)}
    (h : parseFile (rustSearch exSigOf) true [.other exLocalFfi] = .ok segs) :
    ∃ e, Placed.engine true e ∈ segPlaced true segs ∧
      ∀ hash sigOf cb bindgen v, parseBindgenItems hash sigOf e.config cb bindgen = some (.ok v) →
        ∃ a ∈ v.apis, a.name.toCppName = "" := by
  have hu : FileUses [.other exLocalFfi] "" :=
    ⟨(none, exLocalFfi), .head _, ((search_exact found_names_false.1).1 "").1 (.head _)⟩
  obtain ⟨e, he, hv⟩ := used_must_be_found h ⟨_, hu⟩
  exact ⟨e, he, fun hash sigOf cb bindgen v hv' => hv hash sigOf cb bindgen v hv' "" hu⟩

/-- Such a file is accepted by parsing. -/
example : (parseFile (ρ := Nat) (rustSearch exSigOf) true [.other exLocalFfi]) =
    .ok [.other, .autocxx ⟨{ allowlist := .specific [.item ""] }, .notGenerated⟩] := by
  simp [parseFile, parseItems, parseItem, FileState.empty, rustSearch, found_names_false.1, handleDiscovered,
    mustHandle, Discoveries.foundRust, Discoveries.foundAllowlist, FileState.searchOther, topEngines, Call.bind, attach,
    Engine.configMut, pushAll, Allowlist.push, confirmTop, updateFirst, Engine.ofConfig, Config.confirmComplete,
    Engine.newForAutodiscover]

/-- A method offered to C++, in a block for the type `T`. -/
def exMethodItem (attrs : List Attr) (inputs : List SynArg) : SynItem :=
  .impl [] none (.path none (.mk [.mk "T" .none])) [.fn attrs (.mk "g" [] inputs none) []]

/-- `#[extern_rust_function]`. -/
def exOffered : Attr := ⟨false, ["autocxx", "extern_rust", "extern_rust_function"], .pathOnly⟩

/-- `self: &Self` becomes `self: &T`. The type is offered as well. -/
example : (Syn.searchItem (fun s => ⟨Syn.sigIdent s, (match s with
        | .mk _ _ (.typed _ (.reference (.path none (.mk [.mk n _]))) :: _) _ => n
        | _ => ""), none⟩) none {}
      (exMethodItem [exOffered] [.receiver (.reference (.path none (.mk [.mk "Self" .none])))])) =
    .ok { rustFuns := [⟨["g"], ⟨"g", "T", none⟩, true⟩], rustTypes := [["T"]] } := by
  decide +kernel

/-- A marked method is refused in a module, in the block of a type with a path, and without parameters. -/
example : Syn.searchItem exSigOf (some ["m"]) {} (exMethodItem [exOffered] []) = .error .withinMod ∧
    Syn.searchItem exSigOf none {} (.impl [] none (exFfiType "A") [.fn [exOffered] (.mk "g" [] [] none) []]) =
      .error .withoutClearReceiver ∧
    Syn.searchItem exSigOf none {} (exMethodItem [exOffered] []) = .error .noParameterOnMethod := by
  decide +kernel

/-- **C47 fails**: a function of a type which has no receiver, only parameters, is offered to C++ as if it were a method,
and in a receiver's type `Pin<&mut Self>` the type stays `Self`. -/
theorem offered_methods_false :
    Syn.searchItem exSigOf none {} (exMethodItem [exOffered] [.typed (.ident "x" none) .infer]) =
      .ok { rustFuns := [⟨["g"], ⟨"g", "()", none⟩, true⟩], rustTypes := [["T"]] } ∧
    Syn.substSelf "T" (.path none (.mk [.mk "Pin" (.angle [.type (.reference (.path none (.mk [.mk "Self" .none])))])])) =
      .path none (.mk [.mk "Pin" (.angle [.type (.reference (.path none (.mk [.mk "Self" .none])))])]) := by
  refine ⟨by decide +kernel, ?_⟩
  simp [Syn.substSelf, Syn.isSelf]

end Verif
