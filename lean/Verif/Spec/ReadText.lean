import Verif.Model.Log
import Verif.Model.Residuals

/-!
# Reading the log file

What somebody (or a script) does with the file: split it into lines; a line "Iteration: k" or "Damping
activated !" opens a record, "Max error: e" belongs to it; below the title line every line that begins with
a bar is a row, the rows end at the empty line; a row is cut at the bars, the third column at the equals
sign; spaces are dropped.  Nothing here refers to the functions which write the file.
-/

namespace Nrf.Spec

/-- Cut a text at every occurrence of a character. -/
def cut (c : Char) : List Char → List (List Char)
  | [] => [[]]
  | a :: t =>
    if a = c then [] :: cut c t
    else match cut c t with
      | [] => [[a]]
      | l :: ls => (a :: l) :: ls

/-- What follows a prefix. -/
def after (p t : List Char) : Option (List Char) :=
  if p.isPrefixOf t then some (t.drop p.length) else none

/-- One row of numbers: identifier, iterative, left and right member, stopping criterion. -/
structure TextRow where
  index : List Char
  iterative : List Char
  left : List Char
  right : List Char
  error : List Char
deriving DecidableEq

/-- What is read, in the order of the file. -/
inductive TextEvent
  | iteration (number maxError : List Char) (rows : List TextRow)
  | damping (maxError : List Char) (rows : List TextRow)
  | refused
deriving DecidableEq

/-- Cut a row. -/
def readRow (t : List Char) : Option TextRow :=
  match (cut '|' t).map (List.filter (· ≠ ' ')) with
  | [[], i, x, eq, e, []] =>
    match cut '=' eq with
    | [l, r] => some ⟨i, x, l, r, e⟩
    | _ => none
  | _ => none

def TextEvent.addRow (r : TextRow) : TextEvent → TextEvent
  | .iteration k m rows => .iteration k m (rows ++ [r])
  | .damping m rows => .damping m (rows ++ [r])
  | .refused => .refused

def TextEvent.setMax (m : List Char) : TextEvent → TextEvent
  | .iteration k _ rows => .iteration k m rows
  | .damping _ rows => .damping m rows
  | .refused => .refused

/-- Change the newest event. -/
def onNewest (f : TextEvent → TextEvent) : List TextEvent → List TextEvent
  | [] => []
  | e :: es => f e :: es

/-- The title of the table. -/
def tableTitle : List Char :=
  "| Id    |           Iteratives          |        Left                    =                Right          |         Stopping criteria       |".toList

/-- Read one line.  The state: the events, newest first, and whether the line is in a table. -/
def readLine (s : List TextEvent × Bool) (t : List Char) : List TextEvent × Bool :=
  if s.2 then
    if t = [] then (s.1, false)
    else if t.head? = some '|' then
      match readRow t with
      | some r => (onNewest (TextEvent.addRow r) s.1, true)
      | none => s
    else s
  else
    match after "Iteration: ".toList t with
    | some k => (.iteration k [] [] :: s.1, false)
    | none =>
    match after "Max error: ".toList t with
    | some m => (onNewest (TextEvent.setMax m) s.1, false)
    | none =>
    if t = "Damping activated !".toList then (.damping [] [] :: s.1, false)
    else if "Iteration refused".toList.isPrefixOf t then (.refused :: s.1, false)
    else if t = tableTitle then (s.1, true)
    else s

/-- Read the file. -/
def readText (t : List Char) : List TextEvent :=
  ((cut '\n' t).foldl readLine ([], false)).1.reverse

section
variable {F : Type} {n : Nat}

/-- The rows a reader should find: identifier, iterative, members, stopping criterion of every variable. -/
def rows (num : F → List Char) (x : Vec F n) (r : ResidualsValues F n) (e : Vec F n) : List TextRow :=
  (List.finRange n).map fun (i : Fin n) =>
    ⟨Nat.toDigits 10 i.val, num (x i), num (r.left i), num (r.right i), num (e i)⟩

/-- What a reader should find for an entry. -/
def event [Scalar F] (num : F → List Char) : LogEntry F n → Option TextEvent
  | .iteration k x r e => some (.iteration (Nat.toDigits 10 k) (num (amax e)) (rows num x r e))
  | .damping x r e => some (.damping (num (amax e)) (rows num x r e))
  | .refused => some .refused
  | _ => none

/-- The entries which tell what happened in the iterations. -/
def telling : LogEntry F n → Bool
  | .iteration .. | .damping .. | .refused => true
  | _ => false

end
end Nrf.Spec
