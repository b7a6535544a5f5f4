import Verif.RsGenExamples

/-!
# C68: vectors of a class whose objects cannot be destroyed
-/

set_option autoImplicit false

namespace Verif

/-- What bindgen reports of
```cpp
class A { int x; public: A(A &&o); private: ~A(); };
```
where the destructor has the visibility given. -/
def exVectorReports (v : CppVisibility) : List BindgenEvent :=
  [.foundMod 0 "root" none, .found 1 "A", .cppName 1 none (some 0), .found 2 "A_A_bindgen_original",
    .cppName 2 (some "A_bindgen_original") (some 0), .specialMember 2 .moveConstructor,
    .found 3 "A_A_destructor_bindgen_original", .cppName 3 (some "A_destructor_bindgen_original") (some 0),
    .specialMember 3 .destructor, .visibility 3 v]

/-- What bindgen writes for it. -/
def exVectorItems : List BindgenItem :=
  [.mod "root"
    [.struct "A" [("x", false, exCInt)] [],
      .foreignMod [.fn
        { ident := "A_A_bindgen_original"
          inputs := [.typed "this" (.ptr true (.path ["root", "A"] [])),
            .typed "o" (.path ["__bindgen_marker_RValueReference"] [.ptr true (.path ["root", "A"] [])])] }],
      .foreignMod [.fn
        { ident := "A_A_destructor_bindgen_original", inputs := [.typed "this" (.ptr true (.path ["root", "A"] []))] }],
      .impl (.path ["A"] []) [.fn "new" [.call ["A_A_bindgen_original"]],
        .fn "destruct" [.call ["A_A_destructor_bindgen_original"]]]]]

set_option maxRecDepth 10000 in
set_option synthInstance.maxSize 1024 in
/-- **C68 is false**: a class can be moved, but its destructor is private. The run succeeds, and no smart pointers to the
class are asked for, but vectors of it are. C++ cannot make the vectors: they destroy what is in them. If the destructor is
public all is asked for. -/
theorem vector_without_destructor_false :
    (exConvertAll (exRunCfg ["A"] []) (exVectorReports .priv) exVectorItems).rust.map (·.bridgeImpls) =
      some [.cxxVector "A"] ∧
    (exConvertAll (exRunCfg ["A"] []) (exVectorReports .pub) exVectorItems).rust.map (·.bridgeImpls) =
      some [.uniquePtr "A", .sharedPtr "A", .weakPtr "A", .cxxVector "A"] := by
  decide_run

end Verif
