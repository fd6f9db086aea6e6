import Verif.Echo.Doc
import Verif.Echo.FileSpec

/-!
# Reading a complete file — def.y:216-219, 276-300, 357-372
-/

namespace TR

/-- the objects of a section whose properties are defined — def.y:373-457 -/
def EhSecKind.owner : EhSecKind → Option EhOwner
  | .components => some .component | .nets => some .net | .specialnets => some .specialnet | .regions => some .region
  | .groups => some .group | .nondefaultrules => some .nondefaultrule | _ => none

/-- the types of the properties of sections by definitions -/
def ehTypesIn (ds : List EhPd) (k : EhSecKind) (n : String) : Option EhPT := k.owner.bind fun o => ehTypeOf ds o n

/-- an item of a file: a part or a section of property definitions -/
inductive EhItem
  | part (p : EhPart)
  | defs (ds : List EhPd)
deriving DecidableEq, Repr

/-- where the reader is: outside sections, in a section, in property definitions -/
inductive EhAt
  | top
  | sec (k : EhSecKind) (num : Int) (ss : List EhStmt)
  | defs (ds : List EhPd)
deriving DecidableEq, Repr

/-- the rules, word by word; `D` are the definitions so far: they give the types of properties in what follows. In a section
of definitions no other section can begin. -/
def ehDocIn (D : List EhPd) : EhAt → List EhTok → List EhDWord → Option (List EhItem)
  | .top, [], [.enddesign] => some []
  | .top, [], .props :: r => ehDocIn D (.defs []) [] r
  | .defs ds, [], .endprops :: r => (ehDocIn D .top [] r).map (.defs ds :: ·)
  | .defs ds, acc, .w (.tok .semi) :: r =>
      (ehReadPd (acc ++ [.semi])).bind fun p => ehDocIn (D ++ [p]) (.defs (ds ++ [p])) [] r
  | .top, [], .w (.head k) :: .w (.tok (.num d)) :: .w (.tok .semi) :: r => ehDocIn D (.sec k d []) [] r
  | .sec k d ss, [], .w (.fin k') :: r => if k = k' then (ehDocIn D .top [] r).map (.part (.sec k d ss) :: ·) else none
  | .top, acc, .w (.tok .semi) :: r =>
      (ehReadOne (ehTypeOf D .row) (acc ++ [.semi])).bind fun o => (ehDocIn D .top [] r).map (.part (.one o) :: ·)
  | .sec k d ss, acc, .w (.tok .semi) :: r =>
      (ehReadStmt (ehTypesIn D) k (acc ++ [.semi])).bind fun s => ehDocIn D (.sec k d (ss ++ [s])) [] r
  | at_, acc, .w (.tok t) :: r => ehDocIn D at_ (acc ++ [t]) r
  | _, _, _ => none

/-- the version statement and what is after it — def.y:219-245 -/
def ehTakeVersion : List EhDWord → Option (Nat × List EhDWord)
  | .w (.tok (.kw .version)) :: .w (.tok (.num v)) :: .w (.tok .semi) :: r => if 58 < v ∨ v < 0 then none else some (v.toNat, r)
  | r => some (57, r)

/-- the statement about names and what is after it — def.y:247-275 -/
def ehTakeCase (v : Nat) : List EhDWord → Option (Bool × List EhDWord)
  | .w (.tok (.kw .casesens)) :: .w (.tok (.kw .on)) :: .w (.tok .semi) :: r => some (true, r)
  | .w (.tok (.kw .casesens)) :: .w (.tok (.kw .off)) :: .w (.tok .semi) :: r => if v < 56 then some (false, r) else none
  | r => some (true, r)

/-- a complete file: whether names are case sensitive, and the items -/
def ehReadDoc (ws : List EhDWord) : Option (Bool × List EhItem) :=
  (ehTakeVersion ws).bind fun (v, r) => (ehTakeCase v r).bind fun (b, r) => (ehDocIn [] .top [] r).map fun is => (b, is)

/-- the items of a reference file -/
def EhDoc.items (d : EhDoc) : List EhItem :=
  d.blocks.flatMap (fun b => b.1.map .part ++ [.defs b.2]) ++ d.last.map .part

end TR
