import Verif.Model.Listing
/-
The script that starts the daemon for hashes of variables (tools/elfvarsd.sh): its command line, and the commands it executes.

Simplifications: no pathname expansion, `IFS` is not changed, the output of `find … -exec file` is given, the name of the tool is omitted.
-/
namespace Bean
namespace DaemonScript

/-- An array of bash; an element is `none` if it was removed. -/
abbrev BashArray := List (Option Str)

/-- `"${array[@]}"`. -/
def elements (a : BashArray) : List Str := a.filterMap id

/-- Assignment to the name of an array, `array=value`: sets the first element. -/
def assignFirst (v : Str) : BashArray → BashArray
  | [] => [some v]
  | _ :: l => some v :: l

/-- Separators of words. -/
def isSeparator (c : Char) : Bool := c = ' ' || c = '\t' || c = '\n'

/-- Splitting of an unquoted value; `cur` is the word before. -/
def wordsFrom (cur : Str) : Str → List Str
  | [] => if cur = [] then [] else [cur]
  | c :: s =>
    if isSeparator c then (if cur = [] then wordsFrom [] s else cur :: wordsFrom [] s)
    else wordsFrom (cur ++ [c]) s

/-- An unquoted value. -/
def unquoted (s : Str) : List Str := wordsFrom [] s

/-- `$@` in an assignment. -/
def joined (l : List Str) : Str := [' '].intercalate l

/-- Variables of the script. -/
structure Vars where
  args : BashArray
  cache : Str
  socket : Option Str
  nodebug : Bool
  dirs : List Str
deriving DecidableEq, Repr

/-- elfvarsd.sh:3. -/
def defaultArgs : List Str := ["-d", "-D", "-t", "-f", "-w", "-p"].map String.toList

/-- elfvarsd.sh:3-13: start; `SOCKET` and `NODEBUG` may be set in the environment. -/
def initial (socket : Option Str) (nodebug : Bool) : Vars where
  args := defaultArgs.map some
  cache := ".elfvarsd-cache".toList
  socket := socket
  nodebug := nodebug
  dirs := []

/-- elfvarsd.sh:46-52: argument that is not an option. -/
def positional (a : Str) (v : Vars) : Vars :=
  match v.socket with
  | none => { v with socket := some a }
  | some _ => { v with dirs := v.dirs ++ unquoted a }

/-- elfvarsd.sh:14-54: command line; `none` if the usage is shown. The option `-N` is followed by two `shift`. -/
def commandLine : List Str → Vars → Option Vars
  | [], v => some v
  | [a], v =>
    if a = "-h".toList then none
    else if a = "-c".toList then some { v with cache := [] }
    else if a = "-N".toList then some { v with nodebug := true }
    else if a = "--".toList then some { v with args := assignFirst [] v.args }
    else some (positional a v)
  | a :: b :: l, v =>
    if a = "-h".toList then none
    else if a = "-c".toList then commandLine l { v with cache := b }
    else if a = "-N".toList then commandLine l { v with nodebug := true }
    else if a = "--".toList then some { v with args := assignFirst (joined (b :: l)) v.args }
    else commandLine (b :: l) (positional a v)

/-- elfvarsd.sh:58-62: the body of the loop over the indices of the array; its condition is about the variable `i` that is never set, hence about the first element. -/
def dropFirst : BashArray → BashArray
  | some a :: l => if a.map Char.toLower = "-d".toList then none :: l else some a :: l
  | l => l

/-- elfvarsd.sh:58-62: the loop. -/
def dropDebug (a : BashArray) : BashArray := (elements a).foldl (fun a _ => dropFirst a) a

/-- elfvarsd.sh:56-64: without debug symbols. -/
def applyNodebug (v : Vars) : Vars :=
  if v.nodebug then { v with args := dropDebug v.args, cache := v.cache ++ "-nodebug".toList } else v

/-- Output of `find … -exec file -L {} +`: a file and its description. -/
structure Found where
  path : Str
  description : Str
deriving DecidableEq, Repr

/-- A line of the output. -/
def foundLine (f : Found) : Str := f.path ++ ':' :: ' ' :: f.description

/-- `grep`: the text contains another one. -/
def containsText (t : Str) : Str → Bool
  | [] => t.isEmpty
  | c :: s => t.isPrefixOf (c :: s) || containsText t s

/-- `sed 's/: .*//'`. -/
def cutColon : Str → Str
  | [] => []
  | ':' :: ' ' :: _ => []
  | c :: s => c :: cutColon s

/-- elfvarsd.sh:70: the files of a directory that are analysed. -/
def filesOf (l : List Found) : List Str :=
  unquoted (((l.map foundLine).filter (containsText "shared object".toList)).flatMap (fun x => cutColon x ++ ['\n']))

/-- elfvarsd.sh:72: analysis of a directory. -/
def cacheCall (args : BashArray) (dir : Str) (files : List Str) : List Str := (elements args).flatMap unquoted ++ "-b".toList :: dir :: files

/-- elfvarsd.sh:76: `"${SOCKET:=$DEFAULTSOCKET}"`. -/
def socketOf : Option Str → Str
  | some (c :: s) => c :: s
  | _ => "0.0.0.0:9001".toList

/-- elfvarsd.sh:66-80: the commands. -/
def commands (find : Str → List Found) (v : Vars) : List (List Str) :=
  let args := v.args ++ [some "-c".toList, some v.cache]
  let all := args ++ [some "-s".toList, some (socketOf v.socket)]
  v.dirs.map (fun d => cacheCall args d (filesOf (find d))) ++
    if (socketOf v.socket).map Char.toLower ≠ "cache".toList then [(elements all).flatMap unquoted] else []

/-- The script: arguments of the commands that are executed, none if the usage is shown. -/
def script (socket : Option Str) (nodebug : Bool) (find : Str → List Found) (argv : List Str) : List (List Str) :=
  match commandLine argv (initial socket nodebug) with
  | none => []
  | some v => commands find (applyNodebug v)

end DaemonScript
end Bean
