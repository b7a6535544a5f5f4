import Verif.RsGenExamples
import Verif.RsSigProps

/-!
# The types in the signatures of the bridge: a whole run
-/

set_option autoImplicit false

namespace Verif

/-- The types in the signature of a function of the bridge. -/
def BridgeDecl.signature : BridgeDecl → Option (Ident × List RTy × Option RTy)
  | .fn b => some (b.name, b.sig.params.map (·.ty), b.sig.ret)
  | _ => none

set_option maxRecDepth 10000 in
set_option synthInstance.maxSize 1024 in
set_option synthInstance.maxHeartbeats 200000 in
/-- Every name in a signature is built in (`Pin`) or declared. -/
theorem exGood_signatures :
    (exConvertAll (exRunCfg ["P", "C", "g"] ["P"]) exGoodReports exGoodItems).rust.map
      (fun f => (f.externC.filterMap BridgeDecl.declares,
        (f.externC.filterMap BridgeDecl.signature).filter fun x => x.1 ∈ ["f", "g"])) = some
      (["P_autocxx_alloc_autocxx_wrapper_0x0", "P_autocxx_free_autocxx_wrapper_0x0", "P",
        "C_autocxx_alloc_autocxx_wrapper_0x0", "C_autocxx_free_autocxx_wrapper_0x0", "C", "f", "g",
        "new_autocxx_autocxx_wrapper_0x0", "new_synthetic_move_ctor_0x0_autocxx_wrapper_0x0",
        "new_synthetic_const_copy_ctor_0x0_autocxx_wrapper_0x0", "P_synthetic_destructor_0x0_autocxx_wrapper_0x0",
        "C_new_autocxx_autocxx_wrapper_0x0", "C_new_synthetic_move_ctor_0x0_autocxx_wrapper_0x0",
        "C_new_synthetic_const_copy_ctor_0x0_autocxx_wrapper_0x0", "C_synthetic_destructor_0x0_autocxx_wrapper_0x0",
        "c_int"],
       [("f", [.plain (.path ["Pin"] [.ref true none (.path ["C"] [])]), .plain (.path ["P"] [])],
          some (.plain (.path ["c_int"] []))),
        ("g", [.plain (.ref true none (.path ["C"] []))], none)]) := by
  decide_run

/-- Non-trivial instance of `signature_names_partial` and `declarations_distinct_partial`. -/
example : ∃ out f r, Nonempty (ConvertStages 100 (fun _ => 0) exSig .allFunctionsSafe (exRunCfg ["P", "C", "g"] ["P"]) false
      (.ofEvents exGoodReports) exGoodItems out) ∧
    generateRsCode (fun _ => 0) .allFunctionsSafe (exRunCfg ["P", "C", "g"] ["P"]) ["input.h"] r out.apis = some f ∧
    (f.externC.filterMap BridgeDecl.declares).length = 17 ∧
    (∃ b, .fn b ∈ f.externC ∧ b.name = "f" ∧ ∃ x ∈ b.sig.params, x.ty = .plain (.path ["P"] [])) := by
  obtain ⟨f, hf, e⟩ := Option.map_eq_some_iff.1 exGood_signatures
  obtain ⟨c, hc⟩ := PassRun.rust_some hf
  obtain ⟨out, hs, -, hr⟩ := (convertAll_ok_iff ..).1 hc
  have h1 := congrArg (fun x => x.1.length) e
  have h2 := congrArg Prod.snd e
  dsimp only at h1 h2
  refine ⟨out, f, _, hs, hr, h1, ?_⟩
  have hm : ("f", [RTy.plain (.path ["Pin"] [.ref true none (.path ["C"] [])]), .plain (.path ["P"] [])],
      some (RTy.plain (.path ["c_int"] []))) ∈ f.externC.filterMap BridgeDecl.signature :=
    List.mem_of_mem_filter (h2 ▸ List.mem_cons_self)
  obtain ⟨d, hd, hx⟩ := List.mem_filterMap.1 hm
  cases d with
  | fn b =>
    have hx := Option.some.inj hx
    have h3 := congrArg Prod.fst hx
    have h4 := congrArg (fun x => x.2.1) hx
    dsimp only at h3 h4
    have hp : RTy.plain (.path ["P"] []) ∈ b.sig.params.map (·.ty) := by rw [h4]; simp
    obtain ⟨x, hx, e⟩ := List.mem_map.1 hp
    exact ⟨b, hd, h3, x, hx, e⟩
  | _ => cases hx

end Verif
