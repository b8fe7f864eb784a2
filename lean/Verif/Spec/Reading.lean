import Verif.Model.Reading
/-! What can go wrong when a file is read. -/
namespace FF.Spec

/-- The errors the contents of a file or the lack of permission can cause, by the documentation of what the plugin uses: the file cannot be opened or read; it is not
in the format that is expected, or not in the encoding of texts. -/
inductive Fault : Reader → PyExc → Prop
  | unreadable (r) : Fault r .osError
  | elf : Fault .elf .elfError
  | shebang : Fault .shebang .unicodeDecodeError
  | pyText : Fault .py .unicodeDecodeError
  | pySyntax : Fault .py .syntaxError
  | tarShort : Fault .tar .eofError
  | tarFormat : Fault .tar .tarError
  | medium : Fault .medium .runtimeError
  | mime : Fault .mime .valueError
  | grep : Fault .grep .unicodeDecodeError
  | ignore : Fault .ignore .unicodeDecodeError

/-- A file is called like an archive: `x.tar`, the same with the suffix of a compression program, or one of the short forms of these. -/
inductive ArchiveName : List Char → Prop
  | plain (s : List Char) : ArchiveName (s ++ ['.', 't', 'a', 'r'])
  | compressed (s c : List Char) (h : c ∈ [['g', 'z'], ['b', 'z', '2'], ['l', 'z'], ['l', 'z', 'm', 'a'], ['x', 'z']]) : ArchiveName (s ++ ['.', 't', 'a', 'r', '.'] ++ c)
  | short (s c : List Char) (h : c ∈ [['a', 'z'], ['g', 'z'], ['p', 'z'], ['b', '2'], ['b', 'z'], ['b', 'z', '2'], ['z', '2'], ['l', 'z'], ['x', 'z']]) :
      ArchiveName (s ++ ['.', 't'] ++ c)

/-- A file is called like an ignore file: a dot, the name of the program the file is for, if any, and `ignore`. -/
def IgnoreName (name : List Char) : Prop := ∃ prog ∈ [['g', 'i', 't'], [], ['f', 'd'], ['f', 'f']], name = '.' :: prog ++ ['i', 'g', 'n', 'o', 'r', 'e']

end FF.Spec
