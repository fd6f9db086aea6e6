import Verif.Run.ScheduleProps
import Verif.Conn.Props
import Verif.Def.File
/-! # Model: detailed routing, the connectivity check and the written file together

The iterations of detailed routing (`Verif.Run`, with threads `Verif.Thr`) leave open what the connectivity check makes of one net. Here it is the check of
`Verif.Conn`, and the design at the end is given to the writer of `Verif.Def`.

Simplifications: a via is described by its cut layer, its place and its metal; `vname` gives the name of its definition. -/
namespace TR

/-- a wire as the connectivity check sees it — src/dr/FlexDR_conn.cpp:84-115, 138-180. -/
def DSeg.checked (s : DSeg) : CWire := ⟨s.layer, s.b, s.e, decide (s.st.beginKind = .truncate), decide (s.st.endKind = .truncate)⟩

/-- a via as the check sees it: it joins the metal layers below and above its cut layer — src/dr/FlexDR_conn.cpp:116-134, 196-210. -/
def DVia.checked (v : DVia) : CVia := ⟨v.o, v.cut - 1, v.cut + 1⟩

/-- `getShapes`, `getVias`, `getPatchWires` of a net — src/db/obj/frNet.h:84-101. -/
def segsOf (os : List DObj) : List DSeg := os.filterMap (fun | .seg s => some s | _ => none)
def netVias (os : List DObj) : List DVia := os.filterMap (fun | .via v => some v | _ => none)
def patchesOf (os : List DObj) : List DPatch := os.filterMap (fun | .patch p => some p | _ => none)

/-- the check and clean-up of a net is the one of `Verif.Conn`: with `pinAt` telling where the pins of the net are, what is left has the wires, vias and patches of its
result — src/dr/FlexDR_conn.cpp:1080-1158. -/
def CleansBy (R : RunEnv) (pinAt : Nat → Nat → Node → Bool) (nPins : Nat → Nat) : Prop :=
  ∀ n os os', R.clean n os = some os' → ∃ pick fuel c,
    checkFuel (initObjs (mergedWires ((segsOf os).map DSeg.checked)) ((netVias os).map DVia.checked))
      ((foundPins (initObjs (mergedWires ((segsOf os).map DSeg.checked)) ((netVias os).map DVia.checked)) (pinAt n) (nPins n)).map Prod.snd) ≤ fuel ∧
    checkNet ((segsOf os).map DSeg.checked) ((netVias os).map DVia.checked) ((patchesOf os).map (fun p => ⟨p.o, p.layer⟩)) (pinAt n) (nPins n) pick fuel = some (.clean c) ∧
    (segsOf os').map DSeg.checked = c.wires ∧ (netVias os').map DVia.checked = c.vias ∧ (patchesOf os').map (fun p => (⟨p.o, p.layer⟩ : Node)) = c.patches

/-- a via as the writer sees it — src/io/io.cpp:5028-5040. -/
def DVia.out (vname : DVia → String) (v : DVia) : OVia := ⟨vname v, v.cut - 1, v.cut, v.o⟩

/-- the nets given to the writer after detailed routing — src/io/io.cpp:5325-5352. -/
def outNets (R : RunEnv) (name : Nat → String) (vname : DVia → String) (D : DesignSt) : List ONet :=
  R.nets.map (fun n => ⟨name n, segsOf (objsOf n D.objs), (netVias (objsOf n D.objs)).map (DVia.out vname), patchesOf (objsOf n D.objs), []⟩)

end TR
