import Verif.Text.Model

/-!
# Sorting a table through the shell

Models `MultiKeySort`, `psi/utils/key.cc:122-183`: the header line is copied to the output file, then a command line is put
together from the two paths and handed to `system`, which gives it to `/bin/sh`.

The shell and the commands `tail`, `sort` and `uniq` are not part of the repository; what they do is modelled from the POSIX
shell language and the GNU manual, as far as the command line needs it: words separated by blanks, pipes, lists of
commands, appending redirections.  Any other character with a meaning for the shell (quotes, `$`, `*`, `&`, …) gives
`other`: the model says nothing about it.  A command other than these three is a parameter.

Simplified: a file is its text; a pipeline runs its commands one after the other (`sort` writes nothing before it has
read all of its input); numbers to be sorted are not negative and have no fraction.
-/

namespace Psi.ShellSort

open Psi.Text (dec digit? digitsVal split lines)

abbrev Text := List Char

/-- The files. -/
abbrev Fs := Text → Option Text

def Fs.set (fs : Fs) (p t : Text) : Fs := fun q => if q = p then some t else fs q

/-- What the model leaves open. -/
structure Env where
  /-- A file can be created or opened for writing. -/
  writable : Text → Bool
  /-- How far a file is read before an error, and whether there was none. -/
  read : Text → Text → Text × Bool
  /-- Any other command: its words, its input; the files, the output and the exit status. -/
  run : List Text → Text → Fs → Fs × Text × Nat
  /-- The column names Arrow finds in a header line. -/
  columns : Text → List Text
  /-- `GetCpuCount`: `key.cc:53-107`. -/
  cpus : Nat

/-! ### The shell language -/

inductive Tok where
  | word (w : Text)
  | pipe
  | semi
  | append
  deriving DecidableEq

/-- Characters without a meaning for the shell. -/
def plain (c : Char) : Bool :=
  c.isAlphanum || "_./-+:,@%=".toList.contains c || decide (128 ≤ c.toNat)

/-- The end of a word. -/
def flush (cur : Text) (l : List Tok) : List Tok := if cur = [] then l else .word cur :: l

/-- Token recognition (POSIX shell, 2.3).  `none`: a character with another meaning. -/
def lexGo (cur : Text) : Text → Option (List Tok)
  | [] => some (flush cur [])
  | c :: t =>
    if plain c then lexGo (cur ++ [c]) t
    else if c = ' ' ∨ c = '\t' then (lexGo [] t).map (flush cur)
    else if c = ';' ∨ c = '\n' then (lexGo [] t).map fun l => flush cur (.semi :: l)
    else if c = '|' then (lexGo [] t).map fun l => flush cur (.pipe :: l)
    else if c = '>' then
      match t with
      | '>' :: t' =>
        if cur ≠ [] ∧ cur.all Char.isDigit then none
        else (lexGo [] t').map fun l => flush cur (.append :: l)
      | _ => none
    else none

/-- A simple command: its words and the files its output is appended to. -/
structure Cmd where
  words : List Text
  outs : List Text
  deriving DecidableEq

def parseCmd : List Tok → Option Cmd
  | [] => some ⟨[], []⟩
  | .word w :: ts => (parseCmd ts).map fun c => ⟨w :: c.words, c.outs⟩
  | .append :: .word w :: ts => (parseCmd ts).map fun c => ⟨c.words, w :: c.outs⟩
  | _ => none

def cut (sep : Tok) : List Tok → List (List Tok)
  | [] => [[]]
  | t :: ts =>
    if t = sep then [] :: cut sep ts
    else match cut sep ts with
      | [] => [[t]]
      | g :: gs => (t :: g) :: gs

/-- A list of pipelines of simple commands. -/
def parse (ts : List Tok) : Option (List (List Cmd)) :=
  (cut .semi ts).mapM fun p => (cut .pipe p).mapM parseCmd

/-! ### `tail`, `sort`, `uniq` -/

def unlines (ls : List Text) : Text := ls.flatMap fun l => l ++ ['\n']

/-- `tail -n +2`: what follows the first line. -/
def afterFirst (t : Text) : Text := (t.dropWhile (· ≠ '\n')).drop 1

/-- `tail -n +2` of one file, of several (each with a line that names it). -/
def tailOne (E : Env) (fs : Fs) (f : Text) : Text × Nat :=
  match fs f with
  | none => ([], 1)
  | some t => (afterFirst (E.read f t).1, if (E.read f t).2 then 0 else 1)

def tailMany (E : Env) (fs : Fs) : Bool → List Text → Text × Nat
  | _, [] => ([], 0)
  | first, f :: rest =>
    match fs f with
    | none => ((tailMany E fs first rest).1, 1)
    | some t =>
      ((if first then [] else ['\n']) ++ "==> ".toList ++ f ++ " <==\n".toList ++ afterFirst (E.read f t).1
        ++ (tailMany E fs false rest).1,
       if (E.read f t).2 then (tailMany E fs false rest).2 else 1)

def tailFiles (E : Env) (fs : Fs) (files : List Text) : Text × Nat :=
  match files with
  | [f] => tailOne E fs f
  | _ => tailMany E fs true files

/-- Field `i` of a line, counted from 1; fields are separated by commas, quotes mean nothing. -/
def field (line : Text) (i : Nat) : Text := (split ',' line).getD (i - 1) []

/-- Texts in the C locale. -/
def cmpText : Text → Text → Ordering
  | [], [] => .eq
  | [], _ :: _ => .lt
  | _ :: _, [] => .gt
  | a :: x, b :: y => if a.toNat < b.toNat then .lt else if b.toNat < a.toNat then .gt else cmpText x y

/-- The number at the beginning of a text. -/
def number (t : Text) : Nat := ((t.takeWhile Char.isDigit).foldl (fun a c => a * 10 + (c.toNat - 48)) 0)

def cmpNum (a b : Text) : Ordering :=
  if number a < number b then .lt else if number b < number a then .gt else .eq

/-- Options of `sort`. -/
structure SortArgs where
  numeric : Bool
  stable : Bool
  sep : Bool
  parallel : Nat
  keys : List Nat
  files : List Text
  deriving DecidableEq

def dropPrefix (p t : Text) : Option Text := if t.take p.length = p then some (t.drop p.length) else none

/-- `--key=i,i`. -/
def keyArg (w : Text) : Option Nat :=
  match dropPrefix "--key=".toList w with
  | none => none
  | some r =>
    match split ',' r with
    | [a, b] => if a = b ∧ a ≠ [] then digitsVal 0 a else none
    | _ => none

/-- One word after `sort`; `none` for options that are not used here. -/
def sortArg (w : Text) (a : SortArgs) : Option SortArgs :=
  if w = "-n".toList then some { a with numeric := true }
  else if w = "--stable".toList then some { a with stable := true }
  else if w = "--field-separator=,".toList then some { a with sep := true }
  else if w = "--buffer-size=1G".toList then some a
  else match dropPrefix "--parallel=".toList w with
    | some n => (digitsVal 0 n).map fun v => { a with parallel := v }
    | none =>
      match keyArg w with
      | some k => some { a with keys := k :: a.keys }
      | none => if w.head? = some '-' then none else some { a with files := w :: a.files }

def sortArgs : List Text → Option SortArgs
  | [] => some ⟨false, false, false, 1, [], []⟩
  | w :: ws => (sortArgs ws).bind (sortArg w)

/-- The order of two lines. -/
def cmpKeys (numeric : Bool) : List Nat → Text → Text → Ordering
  | [], _, _ => .eq
  | k :: ks, x, y =>
    match (if numeric then cmpNum else cmpText) (field x k) (field y k) with
    | .eq => cmpKeys numeric ks x y
    | o => o

def cmpLines (a : SortArgs) (x y : Text) : Ordering :=
  match cmpKeys a.numeric a.keys x y with
  | .eq => if a.stable then .eq else cmpText x y
  | o => o

/-- Insertion before the first line that is not smaller. -/
def insert (cmp : Text → Text → Ordering) (x : Text) : List Text → List Text
  | [] => [x]
  | y :: ys => if cmp x y = .gt then y :: insert cmp x ys else x :: y :: ys

def isort (cmp : Text → Text → Ordering) (l : List Text) : List Text := l.foldr (insert cmp) []

/-- The text of the files `sort` is to read, `none` if one is missing. -/
def readAll (fs : Fs) : List Text → Option Text
  | [] => some []
  | f :: rest =>
    match fs f, readAll fs rest with
    | some t, some u => some (unlines (lines t) ++ u)
    | _, _ => none

/-- `sort`.  It refuses to run with no thread. -/
def sortRun (fs : Fs) (a : SortArgs) (input : Text) : Text × Nat :=
  if a.parallel = 0 then ([], 2)
  else match (if a.files = [] then some input else readAll fs a.files) with
  | none => ([], 2)
  | some t => (unlines (isort (cmpLines a) (lines t)), 0)

/-- `uniq`. -/
def uniqRun : List Text → List Text
  | [] => []
  | [x] => [x]
  | x :: y :: l => if x = y then uniqRun (y :: l) else x :: uniqRun (y :: l)

/-- One command.  `none`: not modelled. -/
def exec (E : Env) (fs : Fs) (words : List Text) (input : Text) : Option (Fs × Text × Nat) :=
  match (if words.head? = some "LC_ALL=C".toList then words.tail else words) with
  | [] => none
  | name :: args =>
    if '=' ∈ name then none
    else if name = "tail".toList then
      match args with
      | n :: k :: files =>
        if n = "-n".toList ∧ k = "+2".toList then
          if files = [] then some (fs, afterFirst input, 0)
          else if files.any (fun f => f.head? = some '-') then none
          else some (fs, tailFiles E fs files)
        else none
      | _ => none
    else if name = "sort".toList then
      match sortArgs args with
      | none => none
      | some a => if a.sep then some (fs, sortRun fs a input) else none
    else if name = "uniq".toList then
      if args = [] then some (fs, unlines (uniqRun (lines input)), 0) else none
    else some (E.run (name :: args) input fs)

/-- One command with its redirection: the files, what goes into the pipe, the exit status. -/
def step (E : Env) (fs : Fs) (c : Cmd) (input : Text) : Option (Fs × Text × Nat) :=
  match c.outs with
  | [] => exec E fs c.words input
  | [o] =>
    if E.writable o then
      let fs' := fs.set o ((fs o).getD [])
      (exec E fs' c.words input).map fun r => (r.1.set o ((r.1 o).getD [] ++ r.2.1), [], r.2.2)
    else some (fs, [], 2)
  | _ => none

/-- A pipeline: its status is that of its last command. -/
def pipeline (E : Env) : Fs → Text → List Cmd → Option (Fs × Nat)
  | fs, _, [] => some (fs, 0)
  | fs, input, [c] => (step E fs c input).map fun r => (r.1, r.2.2)
  | fs, input, c :: cs => (step E fs c input).bind fun r => pipeline E r.1 r.2.1 cs

/-- Pipelines one after the other. -/
def list (E : Env) : Fs → List (List Cmd) → Option (Fs × Nat)
  | fs, [] => some (fs, 0)
  | fs, [p] => pipeline E fs [] p
  | fs, p :: ps => (pipeline E fs [] p).bind fun r => list E r.1 ps

/-- `system`. -/
def system (E : Env) (fs : Fs) (cmd : Text) : Option (Fs × Nat) :=
  (lexGo [] cmd).bind fun ts => (parse ts).bind (list E fs)

/-! ### `MultiKeySort` -/

/-- `--key=i,i`: `key.cc:165`. -/
def keyWord (i : Nat) : Text := "--key=".toList ++ dec i ++ [','] ++ dec i

/-- The command line: `key.cc:174-179`. -/
def command (inp out : Text) (idx : List Nat) (numeric unique : Bool) (cpus : Nat) : Text :=
  "tail -n +2 ".toList ++ inp ++ " | LC_ALL=C sort ".toList ++ (if numeric then "-n".toList else []) ++
    " --parallel=".toList ++ dec cpus ++ " --buffer-size=1G --stable --field-separator=, ".toList ++
    [' '].intercalate (idx.map keyWord) ++ [' '] ++ (if unique then "| LC_ALL=C uniq".toList else []) ++ " >>".toList ++ out

/-- The cells of a line as Arrow's CSV reader sees them: a comma between quotes is part of a cell.  (A doubled quote inside
a quoted cell is left out.) -/
def csvGo (q : Bool) (cur : Text) : Text → List Text
  | [] => [cur]
  | c :: t =>
    if c = '"' then csvGo (!q) cur t
    else if c = ',' ∧ q = false then cur :: csvGo false [] t
    else csvGo q (cur ++ [c]) t

def csvCells (line : Text) : List Text := csvGo false [] line

/-- One item of a list of processors, "3" or "3-5"; `none` stands for `stoi` throwing.  `key.cc:38-47`. -/
def cpusetItem (item : Text) : Option Int :=
  if '-' ∈ item then
    match digitsVal 0 (item.takeWhile (· ≠ '-')), digitsVal 0 ((item.dropWhile (· ≠ '-')).drop 1) with
    | some a, some b => some ((b : Int) - a + 1)
    | _, _ => none
  else some (if item = [] then 0 else 1)

/-- `ParseCpuset`: `key.cc:33-51`. -/
def parseCpuset (t : Text) : Option Int := ((split ',' t).mapM cpusetItem).map List.sum

/-- `schema->GetFieldIndex`: -1 for a name that is missing or not unique. -/
def fieldIndex (cols : List Text) (k : Text) : Option Nat := if cols.count k = 1 then some (cols.idxOf k) else none

/-- How `MultiKeySort` ends: it returns, it throws, or the shell does something that is not modelled. -/
inductive Out where
  | done (fs : Fs)
  | throws
  | other

/-- The first line: `key.cc:132-134`. -/
def header (t : Text) : Text := t.takeWhile (· ≠ '\n')

/-- `MultiKeySort`: `key.cc:122-183`.  `MakeCsvReader` refuses a missing and an empty file. -/
def multiKeySort (E : Env) (fs : Fs) (inp out : Text) (keys : List Text) (numeric unique : Bool) : Out :=
  match fs inp with
  | none => .throws
  | some t =>
    if t = [] then .throws
    else if E.writable out = false then .throws
    else
      let line := header t
      match keys.mapM (fieldIndex (E.columns line)) with
      | none => .throws
      | some idx =>
        match system E (fs.set out (line ++ ['\n'])) (command inp out (idx.map (· + 1)) numeric unique E.cpus) with
        | none => .other
        | some (fs', status) => if status = 0 then .done fs' else .throws

end Psi.ShellSort
