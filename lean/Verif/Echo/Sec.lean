/-!
# Sections of the written file: when `END` is written

The statements of a section are counted down from the number in its header in one global counter, `numObjs`; `END` is
written when the counter has come to zero. Only the sections of special nets, pins and nets are ended when the library
says that they have ended.
-/

namespace TR

/-- the sections of a DEF file for which a callback is set — src/io/defw.cpp:1649-1667, 3079-3098 -/
inductive EhSecKind
  | components | nets | pins | vias | regions | specialnets | groups | scanchains | iotimings | fpc | timingdisables
  | partitions | pinproperties | blockages | slots | fills | nondefaultrules | styles
deriving DecidableEq, Repr

/-- what the library calls the writer for — module/def/5.8-p029/def/def.y: the header of a section with its number
(for example 1725-1730), a statement, the end of a section (for example 2037-2041) -/
inductive EhEv
  | start (k : EhSecKind) (num : Int)
  | stmt (k : EhSecKind)
  | fin (k : EhSecKind)
deriving DecidableEq, Repr

/-- what is written: a header (the name is `none` if it is not the name of a section), a statement, an `END` -/
inductive EhOut
  | head (k : Option EhSecKind) (num : Int)
  | stmt (k : EhSecKind)
  | fin (k : EhSecKind)
deriving DecidableEq, Repr

/-- the name in the header. Timing disables get two words, `TIMING DISABLES` — src/io/defw.cpp:1649-1670 -/
def ehSecName : EhSecKind → Option EhSecKind
  | .timingdisables => none
  | k => some k

/-- sections ended when the library says so — src/io/defw.cpp:102-113 -/
def ehByEnd (k : EhSecKind) : Bool := k = .specialnets || k = .pins || k = .nets

/-- sections ended by counting — src/io/defw.cpp:260-262 (components), 1623-1625 (nondefault rules), 2403-2405 (vias),
2437-2440 (regions), 2503-2505, 2570-2572, 2612-2614, 2643-2645, 2730-2732, 2765-2767, 2824-2826, 2847-2849,
2879-2902 (fills), 2913-2915. Timing disables (2647-2669) are not counted; nets (707-709), special nets (1571) and
pins (2262-2264) are counted but nothing is written. -/
def ehByCount (k : EhSecKind) : Bool := !(ehByEnd k) && k ≠ .timingdisables

/-- `cs` (src/io/defw.cpp:1642-1673), the ends of the callbacks of statements and `endfunc` (102-113); `n` is `numObjs` -/
def ehSecRun (n : Int) : List EhEv → List EhOut
  | [] => []
  | .start k num :: r => .head (ehSecName k) num :: ehSecRun num r
  | .stmt k :: r =>
      let n' := if k = .timingdisables then n else n - 1
      .stmt k :: ((if ehByCount k ∧ n' ≤ 0 then [.fin k] else []) ++ ehSecRun n' r)
  | .fin k :: r => (if ehByEnd k then [.fin k] else []) ++ ehSecRun n r

end TR
