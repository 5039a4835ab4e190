/-
Model of the command-line parsing in src/console/console.cpp.

A program is called with `argv`, the list of arguments (`argv[0]` is the program's name, `argc = argv.length`, `argv[argc]` is the null pointer).
Strings are lists of characters.  Simplification: the conversion of an argument (`atoi`, `atof`, the first character, or the string
itself) is the parameter `conv`; argument counts are below 2^31 so that `int` arithmetic does not overflow.
-/
namespace FMV.Console

/-- a C string without its terminating zero -/
abbrev Str := List Char

/-- The loop of `findArguments` (src/console/console.cpp:35-38), at index `i` with the arguments from `i` on. -/
def findFrom (name : Str) : Nat → List Str → Int
  | _, [] => -1
  | i, a :: rest => if a = name then (i : Int) else findFrom name (i+1) rest

/-- `findArguments(argc, argv, argument_name)` (src/console/console.cpp:33-41): the loop starts at 1. -/
def findArguments (argv : List Str) (name : Str) : Int := findFrom name 1 (argv.drop 1)

/-- The scalar forms of `parseArguments(argc, argv, str, val)` (src/console/console.cpp:50-106): the returned index and `val` afterwards. -/
def parseScalar {α : Type} (conv : Str → α) (argv : List Str) (str : Str) (val : α) : Int × α :=
  let index := findArguments argv str + 1
  if 0 < index ∧ index < argv.length then (index, conv (argv.getD index.toNat [])) else (index, val)

/-- The `do ... while` loop of the list forms (src/console/console.cpp:116-125, 134-143) with the arguments from `i` on: the values pushed.
`none`: the loop reads `*argv[argc]`, a null pointer (undefined behaviour). -/
def collect {α : Type} (conv : Str → α) : List Str → Option (List α)
  | [] => none
  | a :: rest =>
    if a.head? = some '-' then some []
    else match rest with
      | [] => some [conv a]
      | b :: rest' => (collect conv (b :: rest')).map (conv a :: ·)

/-- The list forms of `parseArguments(argc, argv, str, vals)` (src/console/console.cpp:111-127, 129-145): the returned index and `vals` afterwards. -/
def parseList {α : Type} (conv : Str → α) (argv : List Str) (str : Str) (vals : List α) : Option (Int × List α) :=
  let index := findArguments argv str
  (collect conv (argv.drop (index + 1).toNat)).map (fun l => (index, vals ++ l))

end FMV.Console
