import Verif.CppString
/-!
# Model of `VerilogPreprocOutBuffer` (src/verilogPreproc/out_buffer.cpp, include/.../out_buffer.h, file_line_map.h)

`size_t`/`ssize_t` are `BitVec 64`; `ssize_t += size_t` converts modulo 2^64 as every supported compiler does.
-/
namespace Verif

/-- `size_t` / `ssize_t`. -/
abbrev W := BitVec 64

/-- file_line_map.h 9-16. -/
structure MapItem where
  line : W
  file : Str
  lineOverride : W
deriving DecidableEq, Repr

/-- out_buffer.h 18-45: the stringstream content and the fields. -/
structure OutBuf where
  text : Str
  map : List MapItem
  outputLine : W
  offset : W
  begin_ : W
deriving DecidableEq, Repr

/-- out_buffer.cpp 10-14 (the `assert(_input_line_begin >= 0)` is not modelled). -/
def OutBuf.new (b : W) : OutBuf := ⟨[], [], 0, 0, b⟩

/-- Number of newline characters. -/
def nl (s : Str) : Nat := s.count '\n'

/-- out_buffer.cpp 53-59. -/
def OutBuf.put (o : OutBuf) (s : Str) : OutBuf :=
  { o with text := o.text ++ s, outputLine := o.outputLine + BitVec.ofNat 64 (nl s) }

/-- out_buffer.cpp 74-83 for `endl`. -/
def OutBuf.endl (o : OutBuf) : OutBuf :=
  { o with text := o.text ++ ['\n'], outputLine := o.outputLine + 1 }

/-- out_buffer.cpp 40-42: the loop that emits `k` newlines. -/
def OutBuf.endls : Nat → OutBuf → OutBuf
  | 0, o => o
  | k + 1, o => OutBuf.endls k o.endl

/-- out_buffer.h 22. -/
def NEWLINE_TRESHOLD : W := 3

/-- The input line the buffer believes it is at (out_buffer.h 36: output_line + line_offset + input_line_begin). -/
def OutBuf.inputLine (o : OutBuf) : W := o.outputLine + o.offset + o.begin_

/-- out_buffer.cpp 33-51. `file_line_map.back()` of an empty map (only guarded by an `assert`) is undefined behaviour. -/
def OutBuf.setLine (o : OutBuf) (n : W) : Except Exc OutBuf :=
  let lta := n - (o.outputLine + o.offset + o.begin_)
  if 0 < lta ∧ lta ≤ NEWLINE_TRESHOLD then .ok (o.endls lta.toNat)
  else match o.map.getLast? with
    | none => .error .ub
    | some last => .ok { o with map := o.map ++ [⟨o.outputLine, last.file, n⟩], offset := o.offset + lta }

/-- out_buffer.cpp 16-31. -/
def OutBuf.setFileLine (o : OutBuf) (file : Str) (n : W) : Except Exc OutBuf :=
  let other : OutBuf :=
    { o with map := o.map ++ [⟨o.outputLine, file, n⟩], offset := o.begin_ + n - o.outputLine }
  match o.map.getLast? with
  | some last => if last.file = file then o.setLine n else .ok other
  | none => .ok other

/-- out_buffer.cpp 61-72. -/
def OutBuf.append (o other : OutBuf) : OutBuf :=
  { o with
    text := o.text ++ other.text
    map := o.map ++ other.map.map (fun i => ⟨i.line + o.outputLine, i.file, i.lineOverride⟩)
    outputLine := o.outputLine + other.outputLine
    offset := o.offset + other.offset }

end Verif
