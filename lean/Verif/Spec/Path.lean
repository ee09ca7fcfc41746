import Verif.Model.Basic
/-
Unix paths, as the operating system reads them in a tree of directories without symbolic links.
-/
namespace Coniks.Spec

/-- A place in the file system: the names from it up to the root, the last name first. The root is the empty list. -/
abbrev Place := List Bytes

/-- The parts of a path between slashes. -/
def names : Bytes → List Bytes
  | [] => [[]]
  | c :: t =>
    if c = 0x2F then [] :: names t
    else match names t with
      | n :: ns => (c :: n) :: ns
      | [] => [[c]]

/-- One part of a path leads from one place to another: the empty part and `.` stay, `..` goes to the parent (of the root: to the root),
another name goes down. -/
def walk (p : Place) (n : Bytes) : Place :=
  if n = [] ∨ n = [0x2E] then p else if n = [0x2E, 0x2E] then p.tail else n :: p

/-- The path starts with a slash. -/
def Absolute (path : Bytes) : Prop := path.head? = some 0x2F

instance (path : Bytes) : Decidable (Absolute path) := inferInstanceAs (Decidable (_ = _))

/-- The place a path leads to, for a process that works in `cwd`. -/
def locate (cwd : Place) (path : Bytes) : Place := (names path).foldl walk (if Absolute path then [] else cwd)

/-- A path without its last name: everything up to the last slash. -/
def upToSlash : Bytes → Bytes
  | [] => []
  | c :: t => if 0x2F ∈ c :: t then c :: upToSlash t else []

/-- The place `path` leads to from the directory that holds `file`. -/
def beside (cwd : Place) (file path : Bytes) : Place := locate (locate cwd (upToSlash file)) path

/-- The path that names a place: a slash before every name. -/
def pathOf (p : Place) : Bytes := if p = [] then [0x2F] else p.reverse.flatMap (0x2F :: ·)

end Coniks.Spec
