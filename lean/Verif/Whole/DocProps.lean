import Verif.Whole.DocSpec
import Verif.Whole.Props
import Verif.Echo.DocProps

/-!
# From detailed routing to the file that is read by the next program
-/

namespace TR

theorem stmts_nets (routes : String → List (List PathTok)) (ss : List EhStmt) :
    (ss.map (EhStmt.echoed routes)).filterMap EhStmt.net? = (ss.filterMap EhStmt.net?).map (fun e => e.echoed (routes e.name)) := by
  induction ss with
  | nil => rfl
  | cons s ss ih =>
      cases s <;> simp only [List.map_cons, EhStmt.echoed, List.filterMap_cons, EhStmt.net?, ih]

theorem part_nets (routes : String → List (List PathTok)) (p : EhPart) :
    (EhItem.part (p.echoed routes)).nets = (EhItem.part p).nets.map (fun e => e.echoed (routes e.name)) := by
  cases p with
  | one o => rfl
  | sec k num ss => cases k <;> first | exact stmts_nets routes ss | rfl

theorem parts_nets (routes : String → List (List PathTok)) (ps : List EhPart) :
    ehNetsOf ((ps.map (EhPart.echoed routes)).map .part) = (ehNetsOf (ps.map .part)).map (fun e => e.echoed (routes e.name)) := by
  induction ps with
  | nil => rfl
  | cons p ps ih =>
      simp only [ehNetsOf, List.map_cons, List.flatMap_cons, List.map_append, part_nets] at ih ⊢
      rw [ih]

theorem nets_append (a b : List EhItem) : ehNetsOf (a ++ b) = ehNetsOf a ++ ehNetsOf b := List.flatMap_append

theorem doc_nets (routes : String → List (List PathTok)) (d : EhDoc) :
    ehNetsOf (d.echoed routes).items = (ehNetsOf d.items).map (fun e => e.echoed (routes e.name)) := by
  unfold EhDoc.items
  rw [nets_append, nets_append, List.map_append]
  refine congr (congrArg _ ?_) (parts_nets routes d.last)
  show ehNetsOf (List.flatMap _ (d.blocks.map _)) = _
  induction d.blocks with
  | nil => rfl
  | cons b bs ih =>
      rw [List.map_cons, List.flatMap_cons, List.flatMap_cons, nets_append, nets_append, nets_append, nets_append, List.map_append, List.map_append, ih, parts_nets]
      rfl

/-- **C201 (file).** Detailed routing by any number of threads in any order, ended without an error exit, and then the complete file written over any reference file that the writer
can echo as DEF: the next program reads it. It finds the nets of the reference file, in its order and with its pins. A net that the router does not know has no routes. For every other
one it reads exactly the wires that the net has at the end; either detailed routing left the net as it was, or the net passed the connectivity check and, if no wire then had length
zero, the wires and vias of the file join every two pins of the net that routes reached at that check. -/
theorem c201_file {R : RunEnv} (hR : R.Ok) (hw : RunWritable R T vname) {pinAt : Nat → Nat → Node → Bool} {nPins : Nat → Nat} (hc : CleansBy R pinAt nPins)
    {P : Type} {Q : DrProg P} (hq : DrDescribes R Q) {name : Nat → String} (hn : R.nets.Pairwise (fun a b => name a ≠ name b))
    {S S' : RunSt} (hS : ∀ n, S.flag n = false) (hS0 : ∀ o ∈ S.d.objs, o.Writable T vname) (h : ThrMain R Q S (some S'))
    (num : Int) (d : EhDoc) (hd : EhBlocksOk d.last [] d.blocks) (hr : d.Readable) :
    ∃ is, ehReadDoc (ehDoc (writeNet T false (outNets R name vname S'.d)) num d) = some (true, is) ∧
      (ehNetsOf is).map (fun e => (e.name, e.conns)) = (ehNetsOf d.items).map (fun e => (e.name, e.conns)) ∧
      ∀ e ∈ ehNetsOf is,
        ((∀ n ∈ R.nets, name n ≠ e.name) → e.routes = []) ∧
        ∀ n ∈ R.nets, name n = e.name → ∃ ws vs, rdNet T n e.routes = some (ws, vs) ∧
          (∀ s, s ∈ ws ↔ s.net = n ∧ .seg s ∈ S'.d.objs) ∧
          (objsOf n S'.d.objs = objsOf n S.d.objs ∨ ∃ os, R.clean n os = some (objsOf n S'.d.objs) ∧
            (Drawn os → ∀ k l, k < nPins n → l < nPins n → ReachesPin os (pinAt n) k → ReachesPin os (pinAt n) l → RoutesJoin ws vs (pinAt n) k l)) := by
  classical
  refine ⟨(d.echoed (writeNet T false (outNets R name vname S'.d))).items, ?_, ?_, ?_⟩
  · rw [c199_doc_partial T false _ num d hd, if_pos hr]
  · rw [doc_nets, List.map_map]
    rfl
  · intro e he
    rw [doc_nets] at he
    obtain ⟨e0, _, rfl⟩ := List.mem_map.1 he
    constructor
    · intro hno
      show (connFigs T false (outNets R name vname S'.d) e0.name).map (writeFig T) = []
      have hf : (outNets R name vname S'.d).filter (fun n => n.name = e0.name) = [] := by
        rw [List.filter_eq_nil_iff]
        intro o ho
        unfold outNets at ho
        obtain ⟨n, hn', rfl⟩ := List.mem_map.1 ho
        simpa using show name n ≠ e0.name from hno n hn'
      simp [connFigs, hf]
    · intro n hn' hne
      have := c179_file hR hw hc hq hn hS hS0 h n hn'
      rw [show name n = e0.name from hne] at this
      exact this

/-- a reference file with a net that the router knows, with old routes, and one that it does not know -/
def wholeDoc : EhDoc :=
  { head := ⟨some 58, none⟩
    blocks := [([.one (.name .design "top")], [⟨.net, "slack", .real none none⟩])]
    last := [.sec .nets 2 [.net { name := "n1", conns := [("u1", "A", false), ("u2", "Z", false)], props := [("slack", .num 5, .r)], routes := [[.layer "M1", .point 1 1]] },
      .net { name := "n7", conns := [("u1", "B", false)] }]] }

example : EhBlocksOk wholeDoc.last [] wholeDoc.blocks ∧ wholeDoc.Readable := by
  constructor
  · refine ⟨by simp [EhPart.Ok, EhOne.Ok], by simp, ?_⟩
    intro p hp
    simp only [wholeDoc, List.mem_singleton] at hp
    subst hp
    simp [EhPart.Ok, EhStmt.Ok, EhStmt.kind]
    rintro _ _ _ rfl rfl rfl
    decide
  · refine ⟨by decide, ?_, ?_⟩ <;>
      simp [wholeDoc, EhPart.Fine, EhPart.Readable, EhOne.Readable, EhStmt.Readable, EhNet.Readable, EhSec.Fine, ehByEnd]

instance : DecidableEq (List DSeg × List OVia) := inferInstance
instance : DecidableEq (String × Option (List DSeg × List OVia)) := inferInstance

/-- the run of `Verif.Whole.Props`, written over that file -/
example : ∃ S', ThrMain wholeEnv (thrExProg wholeEnv) wholeStart (some S') ∧
    (ehReadDoc (ehDoc (writeNet wholeTech false (outNets wholeEnv (fun _ => "n1") (fun _ => "V12") S'.d)) 0 wholeDoc)).map
        (fun x => (ehNetsOf x.2).map (fun e => (e.name, rdNet wholeTech 1 e.routes))) =
      some [("n1", some ([⟨1, 4, ⟨1000, 1000⟩, ⟨3000, 1000⟩, ⟨.extend, 5, .extend, 5, 10⟩⟩], [⟨"V12", 2, 3, ⟨1000, 1000⟩⟩, ⟨"V12", 2, 3, ⟨3000, 1000⟩⟩])),
        ("n7", some ([], []))] := by
  obtain ⟨hd, he⟩ := thrEx_meets whole_ok
  obtain ⟨o, ho⟩ := c177_runs (R := wholeEnv) he wholeStart
  have e := c177_detailed_routing hd ho
  have : (runMain wholeEnv wholeStart).map (fun s =>
      (ehReadDoc (ehDoc (writeNet wholeTech false (outNets wholeEnv (fun _ => "n1") (fun _ => "V12") s.d)) 0 wholeDoc)).map
        (fun x => (ehNetsOf x.2).map (fun e => (e.name, rdNet wholeTech 1 e.routes)))) =
      some (some [("n1", some ([⟨1, 4, ⟨1000, 1000⟩, ⟨3000, 1000⟩, ⟨.extend, 5, .extend, 5, 10⟩⟩], [⟨"V12", 2, 3, ⟨1000, 1000⟩⟩, ⟨"V12", 2, 3, ⟨3000, 1000⟩⟩])),
        ("n7", some ([], []))]) := by decide +kernel
  rw [← e] at this
  cases o with
  | none => simp at this
  | some S' => exact ⟨S', ho, by simpa using this⟩

end TR
