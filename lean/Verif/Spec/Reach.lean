import Verif.Preproc
/-!
# Which constructs of a source are reached by a run

`Step env k c c'`: the run that is about to process the rest of a text `c` comes to the point `c'`: behind the first
construct, into the selected branch of a conditional, into the text of a macro or into an included file.
-/
namespace Verif.Spec

/-- A point of a run: nesting budget, context, the rest of the text, output so far, state. -/
structure Conf where
  n : Nat
  ctx : Ctx
  ns : Nodes
  out : OutBuf
  s : PState

/-- The macro is in the database. -/
def Defined (db : MacroDB) (k : Str) : Prop := ∃ v, (k, v) ∈ db

/-- The branch the code takes. -/
inductive Taken (neg : Bool) (db : MacroDB) : Branches → Nat → Nodes → Prop
  | here {cond line g r} : (Defined db cond ↔ neg = false) → Taken neg db (.elif cond line g r) line g
  | els {line g} : Taken neg db (.els line g) line g
  | later {cond line g r l' g'} : ¬ (Defined db cond ↔ neg = false) → Taken neg db r l' g' →
      Taken neg db (.elif cond line g r) l' g'

/-- Start of the nested run on the text of a macro. -/
inductive MacroRun (env : Env) (n : Nat) (c : Call) (out : OutBuf) (s : PState) : Conf → Prop
  | intro {item r0 r t o1} :
      s.db.find c.name = some item →
      firstReplacement item.obj c out = .ok r0 →
      paste env.lang r0 = .ok r →
      r.contains '`' = true →
      s.callStack.length < maxCallStack →
      1 ≤ env.lang → env.lang ≤ 8 →
      env.parse r = .tree t →
      (OutBuf.new (out.begin_ + line0 c.line)).setFileLine (s.incStack.getLast?.getD (c! "<string>")) 0 = .ok o1 →
      MacroRun env n c out s ⟨n, ⟨s.incStack.getLast?.getD (c! "<string>"), false, c! "utf-8"⟩, t, o1,
        { s with callStack := s.callStack ++ [c.name] }⟩

/-- Start of a run on a file. -/
inductive FileRun (env : Env) (n : Nat) (path enc : Str) (out : OutBuf) (s : PState) : Conf → Prop
  | intro {bytes txt t o1} (add : Bool) :
      (add = false ↔ env.parent path ∈ s.incdirs) →
      env.readFile path = .ok bytes →
      toUtf8 bytes enc = .ok txt →
      1 ≤ env.lang → env.lang ≤ 8 →
      env.parse txt = .tree t →
      out.setFileLine path 0 = .ok o1 →
      FileRun env n path enc out s ⟨n, ⟨path, add, enc⟩, t, o1,
        { s with incdirs := if add then s.incdirs ++ [env.parent path] else s.incdirs
                 incStack := s.incStack ++ [path] }⟩

/-- How a point was reached. -/
inductive Kind
  | same
  | call (line : Nat)
  | file

inductive Step (env : Env) : Kind → Conf → Conf → Prop
  | next {n ctx nd r out s o1 s1} : visitNode env (run env n) ctx nd out s = (.ok o1, s1) →
      Step env .same ⟨n, ctx, .cons nd r, out, s⟩ ⟨n, ctx, r, o1, s1⟩
  | branch {n ctx neg b r out s line g o1} : Taken neg s.db b line g → out.setLine (line0 line) = .ok o1 →
      Step env .same ⟨n, ctx, .cons (.cond neg b) r, out, s⟩ ⟨n, ctx, g, o1, s⟩
  | call {n ctx c r out s c'} : MacroRun env n c out s c' →
      Step env (.call c.line) ⟨n + 1, ctx, .cons (.call c) r, out, s⟩ c'
  | inclCall {n ctx line col c r out s c'} : MacroRun env n c out s c' →
      Step env (.call c.line) ⟨n + 1, ctx, .cons (.incl line col (.call c)) r, out, s⟩ c'
  | incl {n ctx line col a r out s q s1 file c'} : incText env (run env (n + 1)) ctx out a s = (.ok q, s1) →
      searchInc env q s1.incdirs = .ok (some file) → s1.incStack.length ≤ includeDepthLimit →
      FileRun env n file ctx.enc (OutBuf.new 0)
        (if ctx.added then { s1 with incdirs := s1.incdirs.dropLast } else s1) c' →
      (ctx.added = true → s1.incdirs ≠ []) →
      Step env .file ⟨n + 1, ctx, .cons (.incl line col a) r, out, s⟩ c'

/-- Points reached from `c0`; the list has the lines of the macro calls entered since the last file. -/
inductive Reached (env : Env) (c0 : Conf) : List Nat → Conf → Prop
  | refl : Reached env c0 [] c0
  | same {ls c c'} : Reached env c0 ls c → Step env .same c c' → Reached env c0 ls c'
  | call {ls c c' l} : Reached env c0 ls c → Step env (.call l) c c' → Reached env c0 (ls ++ [l]) c'
  | file {ls c c'} : Reached env c0 ls c → Step env .file c c' → Reached env c0 [] c'

/-- Starting points of the API functions. -/
def StartStr (env : Env) (db : MacroDB) (incdirs : List Str) (text enc : Str) (c : Conf) : Prop :=
  ∃ txt t o1, toUtf8 text enc = .ok txt ∧ env.parse txt = .tree t ∧ (OutBuf.new 0).setFileLine (c! "<string>") 0 = .ok o1 ∧
    1 ≤ env.lang ∧ env.lang ≤ 8 ∧
    c = ⟨FUEL - 1, ⟨c! "<string>", false, enc⟩, t, o1, initState env db incdirs⟩

def StartFile (env : Env) (db : MacroDB) (incdirs : List Str) (path enc : Str) (c : Conf) : Prop :=
  FileRun env (FUEL - 1) path enc (OutBuf.new 0) (initState env db incdirs) c

/-- Result of processing the rest of the text. -/
def result (env : Env) (c : Conf) : Except Exc OutBuf × PState := visitNodes env (run env c.n) c.ctx c.ns c.out c.s

end Verif.Spec
