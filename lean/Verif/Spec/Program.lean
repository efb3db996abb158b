import Verif.Spec.Compile
import Verif.Spec.Attributes

/-!
# What it is to compile a program
-/

set_option autoImplicit false

namespace Chandeliers.Spec
open Chandeliers.San Chandeliers.Syn Chandeliers.Err

/-- The declarations go through all the passes in this order, each with the signatures and the types
of those before it, and this is what is left of them for code generation. -/
inductive ProgPasses : (String → Option Sig) → (String → Option TyBase) → List SrcDecl →
    List San.Decl → Prop
  | nil {sigs consts} : ProgPasses sigs consts [] []
  | const {sigs consts attrs c c' ds ds'} (ht : c.translate = .ok c') (h : ConstTyped consts c')
    (hn : consts c'.name = none)
    (hs : ProgPasses sigs (extend consts c'.name c'.ty) ds ds') :
    ProgPasses sigs consts (⟨attrs, .const c⟩ :: ds) (.const c' :: ds')
  | extConst {sigs consts attrs x ty ds ds'} (hn : consts x = none)
    (hs : ProgPasses sigs (extend consts x ty) ds ds') :
    ProgPasses sigs consts (⟨attrs, .extConst x ty⟩ :: ds) (.extConst ⟨x, ty⟩ :: ds')
  | node {sigs consts attrs src n ds ds'}
    (h : Passes (meaning attrs).universalPre (tyOpts (meaning attrs)) sigs consts src n)
    (hn : sigs src.name = none)
    (hs : ProgPasses (extend sigs src.name (sigOf (meaning attrs).generics n.inputs n.outputs))
      consts ds ds') :
    ProgPasses sigs consts (⟨attrs, .node src⟩ :: ds) (.node n :: ds')
  | extNode {sigs consts attrs f ins outs ds ds'}
    (h : SigTyped (meaning attrs).main.isSome (meaning attrs).generics (translateArgs ins)
      (translateArgs outs) [])
    (hd : DeclsTyped (translateArgs ins ++ translateArgs outs)) (hn : sigs f = none)
    (hs : ProgPasses (extend sigs f (sigOf (meaning attrs).generics (translateArgs ins)
      (translateArgs outs))) consts ds ds') :
    ProgPasses sigs consts (⟨attrs, .extNode f ins outs⟩ :: ds)
      (.extNode ⟨f, translateArgs ins, translateArgs outs⟩ :: ds')

/-- The types of a list of declarations. -/
def argTypes (as : List ArgsTy) : List TyBase := as.flatMap fun a => a.ids.map fun _ => a.base

/-- The Rust items that the program declares `extern` exist and are what it says.  Constants are of
one of the three basic types. -/
structure ExternOk (X : Extern) (p : SrcProg) : Prop where
  consts : ∀ attrs x ty, ⟨attrs, .extConst x ty⟩ ∈ p → (∀ g, ty ≠ .other g) ∧
    ∃ v, X.consts x = some v ∧ ScalarTy ty v
  nodes : ∀ attrs f ins outs, ⟨attrs, .extNode f ins outs⟩ ∈ p → ∃ m, X.nodes f = some m ∧
    ∀ θ, Respects m (substTy θ (flatTuple (argTypes ins))) (substTy θ (flatTuple (argTypes outs)))

/-- No declaration repeats a type variable among its `#[generic]` attributes (see DESIGN.md, F6). -/
def DistinctGenerics (p : SrcProg) : Prop := ∀ d ∈ p, (meaning d.attrs).generics.Nodup

end Chandeliers.Spec
