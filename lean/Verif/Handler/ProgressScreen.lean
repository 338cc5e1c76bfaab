import Verif.Handler.ProgressRates
import Verif.Input.Spec

/-
C119: what the progress handler and the program osmium_progress write to the terminal (handler/progress.hpp,
examples/osmium_progress.cpp).
-/
namespace Osmium
open Text

/-- progress.hpp 62-68: the counts. -/
def countsText (nodes ways relations : Int) : List Char :=
  '[' :: intDec nodes ++ [']'] ++
    if ways > 0 ∨ relations > 0 then
      [' ', '['] ++ intDec ways ++ [']'] ++ if relations > 0 then [' ', '['] ++ intDec relations ++ [']'] else []
    else []

/-- The word for a kind of object. (progress.hpp 77, 81, 85, 171, 177, 183) -/
def kindWord : PKind → String
  | .node => " Nodes "
  | .way => " Ways "
  | .relation => " Relations "

/-- progress.hpp 77, 81, 85: the current rate. -/
def rateText : PKind × Int → List Char
  | (k, v) => [' ', '('] ++ intDec v ++ (kindWord k).toList ++ "per second)   ".toList

/-- progress.hpp 171, 177, 183: an average. -/
def averageText : PKind × Int → List Char
  | (k, v) => intDec v ++ (kindWord k).toList

/-- progress.hpp 61-93: what `update_display` writes; `wipe` is `!show_per_second`. -/
def displayText (wipe : Bool) (nodes ways relations : Int) (rate : Option (PKind × Int)) : List Char :=
  countsText nodes ways relations ++
    (if wipe then List.replicate 35 ' ' else (rate.map rateText).getD []) ++ ['\r']

/-- What is written for the outputs of the handler.  The display before the averages is that of `final`. (progress.hpp
61-93, 114-120, 156-189) -/
def progressText : List POut → List Char
  | [] => []
  | .hideCursor :: l => '\x1b' :: "[?25l".toList ++ progressText l
  | .display n w r _ :: .average a :: l =>
    displayText true n w r none ++ ("\n  Average: ".toList ++ a.flatMap averageText ++ progressText l)
  | .display n w r rate :: l => displayText false n w r rate ++ progressText l
  | .average a :: l => "\n  Average: ".toList ++ a.flatMap averageText ++ progressText l
  | .showCursor :: l => '\x1b' :: "[?25h".toList ++ "per second\n".toList ++ progressText l

/-- The kind of an object. (progress.hpp 129-154) -/
def kindOf : OsmObj → PKind
  | .node _ => .node
  | .way _ => .way
  | .relation _ => .relation

/-- One call of the handler; `i` is the number of objects before, `clock` the times for each object, `t0` and `t1` those
of `init` and `final`. (progress.hpp 122-189) -/
def progressCall (clock : Nat → Stamp × Stamp) (t0 t1 : Stamp) (s : ProgressSt) (i : Nat) :
    Cb → Res (ProgressSt × Nat × List POut)
  | .init _ => (progressInit s t0).map fun o => (s, i, o)
  | .obj o => (progressCount s (kindOf o) (clock i).1 (clock i).2).map fun p => (p.1, i + 1, p.2)
  | .final => (progressFinal s t1).map fun o => (s, i, o)
  | _ => .ok (s, i, [])

/-- The calls of the reader, and what is printed. (input.hpp 77-203 with progress.hpp) -/
def progressCalls (clock : Nat → Stamp × Stamp) (t0 t1 : Stamp) (s : ProgressSt) (i : Nat) : List Cb → Res (List POut)
  | [] => .ok []
  | c :: cs =>
    (progressCall clock t0 t1 s i c).bind fun p =>
      (progressCalls clock t0 t1 p.1 p.2.1 cs).map fun o => p.2.2 ++ o

/-- examples/osmium_progress.cpp 19-30 `main`: the exit status, if the program ends with one, and standard output; `r` is
what the reader does with the file.  An exception of the reader is not caught.  Simplification: standard error is left out. -/
def osmiumProgress (clock : Nat → Stamp × Stamp) (t0 t1 : Stamp) (tty : Bool) (args : List String)
    (r : String → List Cb × ParseEnd) : Res (Option Int × List Char) :=
  match args with
  | [file] =>
    (progressCalls clock t0 t1 (ProgressSt.new 1000 tty) 0 (r file).1).map fun o =>
      (if (r file).2 = .returned then some 0 else none, progressText o)
  | _ => .ok (some 1, [])

namespace Spec

/-- A terminal: the lines above, the line with the cursor, its column, whether it is visible, and the characters of an
escape sequence that is not complete. (specification, no counterpart in /repo) -/
structure Screen where
  above : List (List Char)
  line : List Char
  col : Nat
  cursor : Bool
  escape : Option (List Char)
deriving DecidableEq, Repr

/-- An empty terminal. (specification, no counterpart in /repo) -/
def Screen.new : Screen := ⟨[], [], 0, true, none⟩

/-- A character in some column of a line. (specification, no counterpart in /repo) -/
def putAt (line : List Char) (col : Nat) (c : Char) : List Char :=
  if col < line.length then line.set col c else line ++ List.replicate (col - line.length) ' ' ++ [c]

/-- What a terminal, as wide as needed, does with a character: `ESC [ ? 2 5 l` and `ESC [ ? 2 5 h` hide and show the cursor. -/
def Screen.put (s : Screen) (c : Char) : Screen :=
  match s.escape with
  | some e =>
    if c.isAlpha then
      { s with escape := none, cursor :=
          if e = "[?25".toList ∧ c = 'l' then false else if e = "[?25".toList ∧ c = 'h' then true else s.cursor }
    else { s with escape := some (e ++ [c]) }
  | none =>
    if c = '\x1b' then { s with escape := some [] }
    else if c = '\r' then { s with col := 0 }
    else if c = '\n' then { s with above := s.above ++ [s.line], line := [], col := 0 }
    else { s with line := putAt s.line s.col c, col := s.col + 1 }

/-- The terminal after a text. (specification, no counterpart in /repo) -/
def Screen.write (s : Screen) (t : List Char) : Screen := t.foldl Screen.put s

/-- The terminal after these outputs. (specification, no counterpart in /repo) -/
def screenAfter (o : List POut) : Screen := Screen.new.write (progressText o)

/-- How many objects of a kind. (specification, no counterpart in /repo) -/
def kindCount (k : PKind) (os : List OsmObj) : Nat := (os.filter fun o => kindOf o = k).length

/-- A number in brackets. (specification, no counterpart in /repo) -/
def bracketed (n : Nat) : List Char := '[' :: natDec n ++ [']']

/-- The counts in brackets; those of ways and relations only if there are some. (specification, no counterpart in
/repo) -/
def countsLine (n w r : Nat) : List Char :=
  if r ≠ 0 then bracketed n ++ ' ' :: bracketed w ++ ' ' :: bracketed r
  else if w ≠ 0 then bracketed n ++ ' ' :: bracketed w
  else bracketed n

/-- The current rate, with three blanks at the end. (specification, no counterpart in /repo) -/
def rateLine (k : PKind) (v : Int) : List Char :=
  " (".toList ++ intDec v ++ (match k with | .node => " Nodes" | .way => " Ways" | .relation => " Relations").toList ++
    " per second)   ".toList

/-- The averages. (specification, no counterpart in /repo) -/
def averageLine (a : List (PKind × Int)) : List Char :=
  "  Average: ".toList ++ (a.flatMap fun p => intDec p.2 ++
    (match p.1 with | .node => " Nodes " | .way => " Ways " | .relation => " Relations ").toList) ++ "per second".toList

/-- The columns that a display fills. (specification, no counterpart in /repo) -/
def displayWidth : POut → Nat
  | .display n w r rate => (countsLine n.toNat w.toNat r.toNat ++ (rate.map fun p => rateLine p.1 p.2).getD []).length
  | _ => 0

end Spec
end Osmium
