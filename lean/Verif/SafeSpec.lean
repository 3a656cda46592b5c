import Verif.IdsProps
import Verif.RegroupWhole
/-
What every task keeps of a document, in terms of the document alone: references have their targets, names stay names, character
data, comments and foreign elements stay what they are.
-/
namespace Verif.Spec
open Verif.Dom
open Verif.Simple (Targeted OnlySvgIds)
open Verif.Regroup (IdsUnique)

/-- Character data, a comment or an element outside the SVG namespace. -/
def Foreign (n : Node) : Prop := ∀ e, n.kind ≠ .elem e

/-- The elements that the cleaner makes (`g`, `defs`, `linearGradient`) or replaces by others (shapes, by `path`). -/
def remade : EId → Bool
  | .g | .defs | .linearGradient | .path | .line | .rect | .polyline | .polygon => true
  | _ => false

/-- Anything else: all other elements of SVG, character data, comments and foreign elements. -/
def Lasting (n : Node) : Prop := ∀ e, n.kind = .elem e → remade e = false

theorem Foreign.lasting {n : Node} (h : Foreign n) : Lasting n := fun e he => absurd he (h e)

/-- What the run of a task keeps. -/
structure Keeps (f g : Forest) : Prop where
  /-- A node occurs once. -/
  unique : g.UniqueKeys
  /-- Every reference points to a node of the document. -/
  links : g.LinksOk
  /-- Character data, comments, foreign elements and those elements of SVG that the cleaner does not make are those of the old
  document: none is new, none has other content or another name. -/
  lasting : ∀ m ∈ g.nodes, Lasting m → ∃ n ∈ f.nodes, n.key = m.key ∧ n.kind = m.kind
  /-- If what is referred to had an id, this is still the case. -/
  targeted : Targeted f → Targeted g
  /-- If all ids were different and belonged to SVG elements, this is still the case. -/
  ids : IdsUnique f → OnlySvgIds f → IdsUnique g ∧ OnlySvgIds g

/-- A task keeps all this of documents in which nodes occur once and references have targets (svgdom only makes such ones). -/
def Safe (f g : Forest) : Prop := f.UniqueKeys → f.LinksOk → Keeps f g

end Verif.Spec
