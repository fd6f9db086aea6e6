import Verif.Echo.DocSpec
import Verif.Whole.Spec

/-!
# The nets of a complete file
-/

namespace TR

/-- the net of a statement -/
def EhStmt.net? : EhStmt → Option EhNet
  | .net e => some e
  | _ => none

/-- the nets of an item: those of the statements of a section `NETS` -/
def EhItem.nets : EhItem → List EhNet
  | .part (.sec .nets _ ss) => ss.filterMap EhStmt.net?
  | _ => []

/-- the nets of a file, in the order of the file -/
def ehNetsOf (is : List EhItem) : List EhNet := is.flatMap EhItem.nets

end TR
