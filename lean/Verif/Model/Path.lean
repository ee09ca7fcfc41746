import Verif.Model.Basic
/-
Model of utils/utils.go:57-64 `ResolvePath`, with the functions `IsAbs`, `Clean`, `Dir`, `Join` of Go's path/filepath on Unix.
-/
namespace Coniks

/-- Go `filepath.IsAbs` on Unix (used at utils/utils.go:60). -/
def isAbs (p : Bytes) : Bool := match p with
  | 0x2F :: _ => true
  | _ => false

/-- The elements of a path: `acc` is the element being read, reversed. -/
def splitPath (acc : Bytes) : Bytes → List Bytes
  | [] => [acc.reverse]
  | c :: t => if c = 0x2F then acc.reverse :: splitPath [] t else splitPath (c :: acc) t

/-- Go `strings.Join(_, "/")` -/
def joinPath : List Bytes → Bytes
  | [] => []
  | [e] => e
  | e :: es => e ++ 0x2F :: joinPath es

/-- One element in the loop of Go's `filepath.Clean`; `out` are the elements written so far, the last one first. A `..` removes the last
element unless that is a `..` that could not be removed; at the root it is dropped. -/
def cleanStep (rooted : Bool) (out : List Bytes) (e : Bytes) : List Bytes :=
  if e = [] then out
  else if e = [0x2E] then out
  else if e = [0x2E, 0x2E] then
    match out with
    | [] => if rooted then [] else [[0x2E, 0x2E]]
    | o :: out' => if o = [0x2E, 0x2E] then e :: out else out'
  else e :: out

/-- Go `filepath.Clean` on Unix (called by `Dir` and `Join` at utils/utils.go:61). Simplification: element by element instead of byte by byte. -/
def cleanPath (p : Bytes) : Bytes :=
  let out := joinPath ((splitPath [] p).foldl (cleanStep (isAbs p)) []).reverse
  if isAbs p then 0x2F :: out else if out = [] then [0x2E] else out

/-- Go `filepath.Dir` on Unix (utils/utils.go:61): `Clean` of everything up to the last slash. -/
def pathDir (p : Bytes) : Bytes := cleanPath (p.reverse.dropWhile fun b => b != 0x2F).reverse

/-- Go `filepath.Join` of two elements (utils/utils.go:61): empty elements are ignored. -/
def pathJoin (a b : Bytes) : Bytes :=
  if a ≠ [] then cleanPath (a ++ 0x2F :: b) else if b ≠ [] then cleanPath b else []

/-- utils/utils.go:57-64 `ResolvePath`. -/
def resolvePath (file other : Bytes) : Bytes := if isAbs file then file else pathJoin (pathDir other) file

end Coniks
