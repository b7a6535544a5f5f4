import Verif.ConfigParseProps

/-!
# C54: the attributes of `#[subclass]`
-/

set_option autoImplicit false

namespace Verif

/-- One attribute of `#[subclass(…)]`. -/
inductive SubAttr where
  | selfOwned
  | superclass (s : String)
deriving DecidableEq, Repr

/-- A list of attributes written with commas between them and, optionally, one at the end. -/
inductive AttrsWritten : List SubAttr → List Tok → Prop
  | nil : AttrsWritten [] []
  | lastOwned : AttrsWritten [.selfOwned] [.ident "self_owned"]
  | lastSuper (s) : AttrsWritten [.superclass s] [.ident "superclass", .paren [.lit s]]
  | moreOwned {l ts} (w : AttrsWritten l ts) :
      AttrsWritten (.selfOwned :: l) (.ident "self_owned" :: .comma :: ts)
  | moreSuper (s) {l ts} (w : AttrsWritten l ts) :
      AttrsWritten (.superclass s :: l) (.ident "superclass" :: .paren [.lit s] :: .comma :: ts)

/-- The superclasses named. -/
def superNames (l : List SubAttr) : List String :=
  l.filterMap fun | .superclass s => some s | .selfOwned => none

theorem superNames_own (l : List SubAttr) : superNames (.selfOwned :: l) = superNames l := rfl
theorem superNames_super (s : String) (l : List SubAttr) :
    superNames (.superclass s :: l) = s :: superNames l := rfl

theorem AttrsWritten.inv {l ts} (w : AttrsWritten l ts) :
    (l = [] ∧ ts = []) ∨ (l = [.selfOwned] ∧ ts = [.ident "self_owned"]) ∨
    (∃ s, l = [.superclass s] ∧ ts = [.ident "superclass", .paren [.lit s]]) ∨
    (∃ l' ts', l = .selfOwned :: l' ∧ ts = .ident "self_owned" :: .comma :: ts' ∧
      AttrsWritten l' ts') ∨
    (∃ s l' ts', l = .superclass s :: l' ∧ ts = .ident "superclass" :: .paren [.lit s] :: .comma :: ts' ∧
      AttrsWritten l' ts') := by
  cases w with
  | nil => exact Or.inl ⟨rfl, rfl⟩
  | lastOwned => exact Or.inr (Or.inl ⟨rfl, rfl⟩)
  | lastSuper s => exact Or.inr (Or.inr (Or.inl ⟨s, rfl, rfl⟩))
  | moreOwned w => exact Or.inr (Or.inr (Or.inr (Or.inl ⟨_, _, rfl, rfl, w⟩)))
  | moreSuper s w => exact Or.inr (Or.inr (Or.inr (Or.inr ⟨s, _, _, rfl, rfl, w⟩)))

theorem pSubclassAttrs_ok (ts : List Tok) (a me : SubclassAttrs) :
    pSubclassAttrs me ts = .ok (a, []) ↔
      ∃ l, AttrsWritten l ts ∧ (me.superclass.toList ++ superNames l).length ≤ 1 ∧
        a = { selfOwned := me.selfOwned || l.contains .selfOwned,
              superclass := (me.superclass.toList ++ superNames l).head? } := by
  have hso : "self_owned" ∉ rustReserved := by simp [rustReserved]
  have hsu : "superclass" ∉ rustReserved := by simp [rustReserved]
  have hl : ∀ me : SubclassAttrs, me.superclass.toList.length ≤ 1 := by
    intro me; cases me.superclass <;> simp
  have hh : ∀ me : SubclassAttrs, me.superclass.toList.head? = me.superclass := by
    intro me; cases me.superclass <;> simp
  fun_induction pSubclassAttrs me ts
  case case1 me id ts h =>
    constructor
    · intro h'; cases h'
    · rintro ⟨l, w, -⟩
      rcases w.inv with ⟨-, e⟩ | ⟨-, e⟩ | ⟨s, -, e⟩ | ⟨l', ts', -, e, -⟩ | ⟨s, l', ts', -, e, -⟩ <;>
        simp at e <;> simp_all
  case case2 me ts h ih =>
    refine Iff.trans ih ?_
    constructor
    · rintro ⟨l, w, h1, rfl⟩
      exact ⟨_, .moreOwned w, h1, by simp [superNames_own]⟩
    · rintro ⟨l, w, h1, rfl⟩
      rcases w.inv with ⟨-, e⟩ | ⟨-, e⟩ | ⟨s, -, e⟩ | ⟨l', ts', rfl, e, w⟩ | ⟨s, l', ts', -, e, -⟩ <;>
        simp at e
      subst e
      exact ⟨_, w, h1, by simp [superNames_own]⟩
  case case3 me ts hx hr =>
    constructor
    · intro h'; cases h'
      refine ⟨_, .lastOwned, ?_, ?_⟩
      · simpa [superNames] using hl me
      · simp [superNames, hh]
    · rintro ⟨l, w, h1, rfl⟩
      rcases w.inv with ⟨-, e⟩ | ⟨rfl, e⟩ | ⟨s, -, e⟩ | ⟨l', ts', rfl, e, w⟩ | ⟨s, l', ts', -, e, -⟩ <;>
        simp at e
      · subst e; simp [superNames, hh]
      · exact absurd e (hx _)
  case case4 me s ts h _ _ =>
    constructor
    · intro h'; cases h'
    · rintro ⟨l, w, h1, rfl⟩
      obtain ⟨v, hv⟩ := Option.isSome_iff_exists.1 h
      rcases w.inv with ⟨-, e⟩ | ⟨rfl, e⟩ | ⟨s, rfl, e⟩ | ⟨l', ts', rfl, e, w⟩ | ⟨s, l', ts', rfl, e, -⟩ <;>
        simp at e <;> simp [hv, superNames_super] at h1
  case case5 me s h ts _ _ ih =>
    have hn : me.superclass = none := by simpa using h
    refine Iff.trans ih ?_
    constructor
    · rintro ⟨l, w, h1, rfl⟩
      exact ⟨_, .moreSuper s w, by simpa [hn, superNames_super] using h1, by
        simp [hn, superNames_super]⟩
    · rintro ⟨l, w, h1, rfl⟩
      rcases w.inv with ⟨-, e⟩ | ⟨rfl, e⟩ | ⟨s, rfl, e⟩ | ⟨l', ts', rfl, e, w⟩ | ⟨s, l', ts', rfl, e, w⟩ <;>
        simp at e
      obtain ⟨rfl, rfl⟩ := e
      exact ⟨_, w, by simpa [hn, superNames_super] using h1, by simp [hn, superNames_super]⟩
  case case6 me s ts h hx _ _ =>
    have hn : me.superclass = none := by simpa using h
    constructor
    · intro h'; cases h'
      exact ⟨_, .lastSuper s, by simp [superNames, hn], by simp [superNames, hn]⟩
    · rintro ⟨l, w, h1, rfl⟩
      rcases w.inv with ⟨-, e⟩ | ⟨rfl, e⟩ | ⟨s, rfl, e⟩ | ⟨l', ts', rfl, e, w⟩ | ⟨s, l', ts', rfl, e, w⟩ <;>
        simp at e
      · obtain ⟨rfl, rfl⟩ := e; simp [superNames, hn]
      · exact absurd e.2 (hx _)
  case case7 =>
    constructor
    · intro h'; cases h'
    · rintro ⟨l, w, h1, rfl⟩
      rcases w.inv with ⟨-, e⟩ | ⟨rfl, e⟩ | ⟨s, rfl, e⟩ | ⟨l', ts', rfl, e, w⟩ | ⟨s, l', ts', rfl, e, w⟩ <;>
        simp at e
  case case8 =>
    constructor
    · intro h'; cases h'
    · rintro ⟨l, w, h1, rfl⟩
      rcases w.inv with ⟨-, e⟩ | ⟨rfl, e⟩ | ⟨s, rfl, e⟩ | ⟨l', ts', rfl, e, w⟩ | ⟨s, l', ts', rfl, e, w⟩ <;>
        simp at e
  case case9 me ts hx hx2 _ _ =>
    constructor
    · intro h'; cases h'
    · rintro ⟨l, w, h1, rfl⟩
      rcases w.inv with ⟨-, e⟩ | ⟨rfl, e⟩ | ⟨s, rfl, e⟩ | ⟨l', ts', rfl, e, w⟩ | ⟨s, l', ts', rfl, e, w⟩ <;>
        simp at e <;> exact absurd e (hx _ _)
  case case10 =>
    constructor
    · intro h'; cases h'
    · rintro ⟨l, w, h1, rfl⟩
      rcases w.inv with ⟨-, e⟩ | ⟨rfl, e⟩ | ⟨s, rfl, e⟩ | ⟨l', ts', rfl, e, w⟩ | ⟨s, l', ts', rfl, e, w⟩ <;>
        simp at e <;> simp_all
  case case11 ts me hx =>
    constructor
    · intro h'; cases h'
      exact ⟨_, .nil, by simpa [superNames] using hl _, by simp [superNames, hh]⟩
    · rintro ⟨l, w, h1, rfl⟩
      cases w with
      | nil => simp [superNames, hh]
      | _ => exact absurd rfl (hx _ _)

/-- **C54.** The attributes are accepted exactly if they are a comma-separated list, possibly with a comma
at the end, of `self_owned` and at most one `superclass("…")`, in any order; and they mean what they
say. -/
theorem subclass_attrs_ok_iff (ts : List Tok) (a : SubclassAttrs) :
    parseSubclassAttrs ts = .ok a ↔
      ∃ l, AttrsWritten l ts ∧ (superNames l).length ≤ 1 ∧
        a = { selfOwned := l.contains .selfOwned, superclass := (superNames l).head? } := by
  have := pSubclassAttrs_ok ts a {}
  simp only [Option.toList_none, List.nil_append, Bool.false_or] at this
  rw [← this]
  unfold parseSubclassAttrs
  cases h : pSubclassAttrs {} ts with
  | error e => simp
  | ok r =>
    obtain ⟨b, rest⟩ := r
    cases rest <;> simp

/-- **C54 is false** of `self_owned`: it may be repeated. -/
theorem subclass_attrs_repeat_false :
    parseSubclassAttrs [.ident "self_owned", .comma, .ident "self_owned"] =
      .ok { selfOwned := true, superclass := none } :=
  (subclass_attrs_ok_iff _ _).2 ⟨_, .moreOwned .lastOwned, by simp [superNames], by simp [superNames]⟩

example : parseSubclassAttrs [.ident "superclass", .paren [.lit "A"], .comma, .ident "self_owned", .comma] =
    .ok { selfOwned := true, superclass := some "A" } :=
  (subclass_attrs_ok_iff _ _).2 ⟨_, .moreSuper "A" (.moreOwned .nil), by simp [superNames], by
    simp [superNames]⟩

end Verif
