import Verif.Model.PyStr
/-! File types and permissions: what they should mean. -/
namespace FF.Spec

/-- The documented names of file types with the number in the upper four of the sixteen bits of a mode, and the letter that ls(1) shows; see inode(7). -/
def fileTypes : List (Nat × Str × Char) :=
  [(4, "directory".toList, 'd'), (8, "file".toList, '-'), (10, "symlink".toList, 'l'), (12, "socket".toList, 's'), (1, "fifo".toList, 'p'),
   (2, "char".toList, 'c'), (6, "block".toList, 'b')]

/-- The number of the file type. -/
def typeNumber (mode : Nat) : Nat := mode / 4096 % 16

/-- Reads one class of permissions as shown by ls(1): the permission bits from 0 to 7, and the special bit (set-id or sticky). -/
def readClass (special : Char) : Str → Option (Nat × Nat)
  | [r, w, x] =>
    match (if r = 'r' then some 4 else if r = '-' then some 0 else none), (if w = 'w' then some 2 else if w = '-' then some 0 else none),
        (if x = 'x' then some (1, 0) else if x = '-' then some (0, 0) else if x = special then some (1, 1) else if x = special.toUpper then some (0, 1) else none) with
    | some a, some b, some (c, s) => some (a + b + c, s)
    | _, _, _ => none
  | _ => none

/-- Reads the permissions as shown by ls(1). -/
def readPerms (s : Str) : Option Nat :=
  match readClass 's' (s.take 3), readClass 's' ((s.drop 3).take 3), readClass 't' (s.drop 6) with
  | some (u, su), some (g, sg), some (o, t) => some ((su * 4 + sg * 2 + t) * 512 + u * 64 + g * 8 + o)
  | _, _, _ => none

end FF.Spec
