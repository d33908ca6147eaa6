import Verif.OutBuffer
/-!
# Specification vocabulary for line information (independent of the buffer's counters)
-/
namespace Verif.Spec

/-- A history of operations a preprocessor performs on a buffer without `` `include ``. -/
inductive Ev
  /-- text was written -/
  | text (s : Str)
  /-- the next text comes from line `n` (0-based) of the current file -/
  | line (n : W)
  /-- the next text comes from line `n` of file `f` -/
  | fileLine (f : Str) (n : W)
deriving DecidableEq, Repr

/-- The source position (file, line) of the *next* character according to the history: the last announced position,
advanced by the newlines written since then. -/
def srcPosFrom (p : Option (Str × W)) : List Ev → Option (Str × W)
  | [] => p
  | .text s :: r => srcPosFrom (p.map fun (f, n) => (f, n + BitVec.ofNat 64 (s.count '\n'))) r
  | .line n :: r => srcPosFrom (p.map fun (f, _) => (f, n)) r
  | .fileLine f n :: r => srcPosFrom (some (f, n)) r

@[inherit_doc srcPosFrom] def srcPos (evs : List Ev) : Option (Str × W) := srcPosFrom none evs

/-- Meaning of a line map: output line `l` belongs to the last entry that starts at or before `l`. -/
def lookup (m : List MapItem) (l : W) : Option (Str × W) :=
  (m.filter (fun i => i.line ≤ l)).getLast?.map (fun i => (i.file, i.lineOverride + (l - i.line)))

/-- Perform a history on a buffer. -/
def runEvs (o : OutBuf) : List Ev → Except Exc OutBuf
  | [] => .ok o
  | .text s :: r => runEvs (o.put s) r
  | .line n :: r => match o.setLine n with | .ok o => runEvs o r | .error e => .error e
  | .fileLine f n :: r => match o.setFileLine f n with | .ok o => runEvs o r | .error e => .error e

/-- All buffers that can be produced with the public operations, including `<<` of a finished buffer. -/
inductive Reach : OutBuf → Prop
  | new (b : W) : Reach (OutBuf.new b)
  | put {o : OutBuf} (s : Str) : Reach o → Reach (o.put s)
  | line {o o' : OutBuf} (n : W) : Reach o → o.setLine n = .ok o' → Reach o'
  | fileLine {o o' : OutBuf} (f : Str) (n : W) : Reach o → o.setFileLine f n = .ok o' → Reach o'
  | append {o c : OutBuf} : Reach o → Reach c → Reach (o.append c)

end Verif.Spec
