import Verif.Model.Message
/-! The help texts of the options, /repo/libff/arguments.py:50-171, as lists of characters, which are checked faster than strings. -/
namespace FF

/-- libff/arguments.py:52 -/
def optionText0 : Str := ['A',' ','t','e','s','t',' ','f','o','r',' ','f','i','l','e',' ','m','a','t','c','h','i','n','g',' ','o','r',' ','a',' ','t','h','e',' ','p','a','t',
  'h',' ','t','o',' ','a',' ','d','i','r','e','c','t','o','r','y',' ','t','o',' ','s','e','a','r','c','h','.']
/-- libff/arguments.py:55 -/
def optionText1 : Str := ['D','o',' ','a',' ','p','r','o','f','i','l','i','n','g',' ','r','u','n',' ','o','n',' ','t','h','e',' ','g','i','v','e','n',' ','a','r','g','u','m',
  'e','n','t','s',' ','a','n','d',' ','s','u','p','p','r','e','s','s',' ','t','h','e',' ','o','u','t','p','u','t','.']
/-- libff/arguments.py:57-58 -/
def optionText2 : Str := ['S','h','o','w',' ','d','e','b','u','g',' ','m','e','s','s','a','g','e','s','.',' ','S','p','e','c','i','f','y',' ','e','i','t','h','e','r',' ','\'',
  'a','l','l','\'',',',' ','\'','n','o','n','e','\'',' ','o','r',' ','a',' ','c','o','m','m','a','-','s','e','p','a','r','a','t','e','d',' ','l','i','s','t',' ','o','f',' ',
  '<','c','a','t','e','g','o','r','i','e','s','>',',',' ','d','e','f','a','u','l','t',' ','i','s',' ','t','o',' ','s','h','o','w',' ','\'','n','o','n','e','\'','.']
/-- libff/arguments.py:60 -/
def optionText3 : Str := ['L','o','c','a','t','i','o','n',' ','o','f',' ','t','h','e',' ','m','e','t','a','d','a','t','a',' ','c','a','c','h','e',',',' ','t','h','e',' ','d',
  'e','f','a','u','l','t',' ','i','s',' ','~','/','.','c','a','c','h','e','/','f','f','.','d','b','.']
/-- libff/arguments.py:62 -/
def optionText4 : Str := ['D','o',' ','n','o','t',' ','u','s','e',' ','t','h','e',' ','m','e','t','a','d','a','t','a',' ','c','a','c','h','e','.']
/-- libff/arguments.py:64 -/
def optionText5 : Str := ['R','e','m','o','v','e',' ','s','t','a','l','e',' ','e','n','t','r','i','e','s',' ','f','r','o','m',' ','t','h','e',' ','m','e','t','a','d','a','t',
  'a',' ','c','a','c','h','e','.']
/-- libff/arguments.py:66-67 -/
def optionText6 : Str := ['S','e','t',' ','n','u','m','b','e','r',' ','o','f',' ','p','r','o','c','e','s','s','e','s',' ','t','o',' ','u','s','e',' ','f','o','r',' ','s','e',
  'a','r','c','h','i','n','g',' ','a','n','d',' ','e','x','e','c','u','t','i','n','g',' ','(','d','e','f','a','u','l','t',':',' ','t','h','e',' ','n','u','m','b','e','r',' ',
  'o','f',' ','C','P','U',' ','c','o','r','e','s',')','.']
/-- libff/arguments.py:69-70 -/
def optionText7 : Str := ['S','e','a','r','c','h',' ','e','n','t','r','i','e','s',' ','i','n',' ','t','h','i','s',' ','p','a','t','h',' ','(','d','e','f','a','u','l','t',' ',
  'i','s',' ','c','u','r','r','e','n','t',' ','d','i','r','e','c','t','o','r','y',')','.',' ','M','a','y',' ','b','e',' ','s','p','e','c','i','f','i','e','d',' ','m','u','l',
  't','i','p','l','e',' ','t','i','m','e','s','.']
/-- libff/arguments.py:74 -/
def optionText8 : Str := ['S','h','o','w',' ','t','h','i','s',' ','h','e','l','p',' ','m','e','s','s','a','g','e',' ','o','r',' ','t','h','e',' ','h','e','l','p',' ','m','e',
  's','s','a','g','e',' ','f','o','r',' ','a',' ','p','a','r','t','i','c','u','l','a','r',' ','p','l','u','g','i','n','.']
/-- libff/arguments.py:76 -/
def optionText9 : Str := ['S','h','o','w',' ','p','r','o','g','r','a','m','\'','s',' ','v','e','r','s','i','o','n',' ','n','u','m','b','e','r',' ','a','n','d',' ','e','x','i',
  't','.']
/-- libff/arguments.py:78 -/
def optionText10 : Str := ['S','h','o','w',' ','a',' ','f','u','l','l',' ','h','e','l','p',' ','i','n',' ','m','a','n',' ','p','a','g','e',' ','f','o','r','m','a','t','.']
/-- libff/arguments.py:81 -/
def optionText11 : Str := ['S','h','o','w',' ','a',' ','l','i','s','t',' ','o','f',' ','a','v','a','i','l','a','b','l','e',' ','a','t','t','r','i','b','u','t','e','s',' ','t',
  'o',' ','u','s','e',' ','f','o','r',' ','s','e','a','r','c','h','i','n','g',',',' ','s','o','r','t','i','n','g',' ','a','n','d',' ','o','u','t','p','u','t','.']
/-- libff/arguments.py:83 -/
def optionText12 : Str := ['S','h','o','w',' ','a',' ','l','i','s','t',' ','o','f',' ','a','v','a','i','l','a','b','l','e',' ','p','l','u','g','i','n','s','.']
/-- libff/arguments.py:85 -/
def optionText13 : Str := ['S','h','o','w',' ','a',' ','l','i','s','t',' ','o','f',' ','a','v','a','i','l','a','b','l','e',' ','t','y','p','e','s','.']
/-- libff/arguments.py:89 -/
def optionText14 : Str := ['E','x','c','l','u','d','e',' ','e','n','t','r','i','e','s',' ','t','h','a','t',' ','m','a','t','c','h',' ','t','h','e',' ','g','i','v','e','n',' ',
  't','e','s','t','.']
/-- libff/arguments.py:91 -/
def optionText15 : Str := ['D','o',' ','n','o','t',' ','s','h','o','w',' ','h','i','d','d','e','n',' ','f','i','l','e','s',' ','a','n','d',' ','d','i','r','e','c','t','o','r',
  'i','e','s','.']
/-- libff/arguments.py:93 -/
def optionText16 : Str := ['D','o',' ','n','o','t',' ','s','h','o','w',' ','f','i','l','e','s',' ','t','h','a','t',' ','a','r','e',' ','e','x','c','l','u','d','e','d',' ','b',
  'y',' ','p','a','t','t','e','r','n','s',' ','f','r','o','m',' ','.','{',',','g','i','t',',','f','d',',','f','f','}','i','g','n','o','r','e',' ','f','i','l','e','s','.']
/-- libff/arguments.py:95 -/
def optionText17 : Str := ['D','o',' ','n','o','t',' ','r','e','a','d',' ','p','a','t','t','e','r','n','s',' ','f','r','o','m',' ','i','g','n','o','r','e',' ','f','i','l','e',
  's',' ','f','r','o','m',' ','p','a','r','e','n','t',' ','d','i','r','e','c','t','o','r','i','e','s','.']
/-- libff/arguments.py:98-99 -/
def optionText18 : Str := ['A',' ','c','o','m','m','a','-','s','e','p','a','r','a','t','e','d',' ','l','i','s','t',' ','o','f',' ','f','i','l','e','n','a','m','e','s',' ','t',
  'h','a','t',' ','c','o','n','t','a','i','n',' ','i','g','n','o','r','e',' ','p','a','t','t','e','r','n','s','.',' ','D','e','f','a','u','l','t',' ','i','s',' ','.','f','d',
  'i','g','n','o','r','e',',','.','f','f','i','g','n','o','r','e',',','.','g','i','t','i','g','n','o','r','e',',','.','i','g','n','o','r','e','.']
/-- libff/arguments.py:101-105 -/
def optionText19 : Str := ['S','h','o','w',' ','o','n','l','y',' ','f','i','l','e','s',' ','t','h','a','t',' ','a','r','e',' ','l','o','c','a','t','e','d',' ','a','t',' ','a',
  ' ','c','e','r','t','a','i','n',' ','d','e','p','t','h',' ','l','e','v','e','l',' ','o','f',' ','t','h','e',' ','d','i','r','e','c','t','o','r','y',' ','t','r','e','e',' ',
  't','h','a','t',' ','i','s',' ','w','i','t','h','i','n',' ','t','h','e',' ','g','i','v','e','n',' ','<','r','a','n','g','e','>','.',' ','A',' ','<','r','a','n','g','e','>',
  ' ','i','s',' ','a',' ','s','t','r','i','n','g',' ','o','f',' ','t','h','e',' ','f','o','r','m',' ','\'','<','s','t','a','r','t','>','-','<','s','t','o','p','>','\'','.',' ',
  '<','s','t','a','r','t','>',' ','a','n','d',' ','<','s','t','o','p','>',' ','a','r','e',' ','o','p','t','i','o','n','a','l',' ','a','n','d',' ','m','a','y',' ','b','e',' ',
  'o','m','i','t','t','e','d','.',' ','<','r','a','n','g','e','>',' ','m','a','y',' ','a','l','s','o',' ','b','e',' ','a',' ','s','i','n','g','l','e',' ','n','u','m','b','e',
  'r','.',' ','I','t',' ','i','s',' ','p','o','s','s','i','b','l','e',' ','t','o',' ','s','p','e','c','i','f','y',' ','m','u','l','t','i','p','l','e',' ','r','a','n','g','e',
  's',' ','s','e','p','a','r','a','t','e','d',' ','b','y',' ','c','o','m','m','a','.']
/-- libff/arguments.py:108 -/
def optionText20 : Str := ['H','o','w',' ','t','o',' ','t','r','e','a','t',' ','t','h','e',' ','c','a','s','e',' ','o','f',' ','t','e','x','t',' ','a','t','t','r','i','b','u',
  't','e','s',' ','(','s','m','a','r','t',',',' ','i','g','n','o','r','e',' ','o','r',' ','s','e','n','s','i','t','i','v','e',')','.']
/-- libff/arguments.py:110 -/
def optionText21 : Str := ['F','o','l','l','o','w',' ','s','y','m','b','o','l','i','c',' ','l','i','n','k','s','.']
/-- libff/arguments.py:113 -/
def optionText22 : Str := ['D','o',' ','n','o','t',' ','d','e','s','c','e','n','d',' ','i','n','t','o',' ','d','i','f','f','e','r','e','n','t',' ','f','i','l','e',' ','s','y',
  's','t','e','m','s','.']
/-- libff/arguments.py:117 -/
def optionText23 : Str := ['F','a','i','l',' ','w','i','t','h',' ','e','x','i','t','c','o','d','e',' ','1',' ','i','f',' ','t','h','e','r','e',' ','a','r','e',' ','n','o',' ',
  's','e','a','r','c','h',' ','r','e','s','u','l','t','s','.']
/-- libff/arguments.py:119 -/
def optionText24 : Str := ['E','x','e','c','u','t','e',' ','a',' ','c','o','m','m','a','n','d',' ','f','o','r',' ','e','a','c','h',' ','s','e','a','r','c','h',' ','r','e','s',
  'u','l','t','.']
/-- libff/arguments.py:121 -/
def optionText25 : Str := ['E','x','e','c','u','t','e',' ','a',' ','c','o','m','m','a','n','d',' ','w','i','t','h',' ','a','l','l',' ','s','e','a','r','c','h',' ','r','e','s',
  'u','l','t','s',' ','a','t',' ','o','n','c','e','.']
/-- libff/arguments.py:124-125 -/
def optionText26 : Str := ['W','h','e','n',' ','t','o',' ','t','e','r','m','i','n','a','t','e',' ','i','n',' ','c','a','s','e',' ','o','n','e',' ','o','f',' ','t','h','e',' ',
  '-','x','/','-','-','e','x','e','c',' ','c','o','m','m','a','n','d','s',' ','f','a','i','l','s',':',' ','*','n','e','v','e','r','*',',',' ','s','o','o','n',',',' ','n','o',
  'w','.']
/-- libff/arguments.py:128 -/
def optionText27 : Str := ['W','h','e','n',' ','t','o',' ','u','s','e',' ','c','o','l','o','r','s',':',' ','n','e','v','e','r',',',' ','*','a','u','t','o','*',',',' ','a','l',
  'w','a','y','s','.']
/-- libff/arguments.py:130 -/
def optionText28 : Str := ['S','h','o','w',' ','a','b','s','o','l','u','t','e',' ','i','n','s','t','e','a','d',' ','o','f',' ','r','e','l','a','t','i','v','e',' ','p','a','t',
  'h','s','.']
/-- libff/arguments.py:132 -/
def optionText29 : Str := ['S','e','p','a','r','a','t','e',' ','r','e','s','u','l','t','s',' ','b','y',' ','t','h','e',' ','n','u','l','l',' ','c','h','a','r','a','c','t','e',
  'r','.']
/-- libff/arguments.py:135 -/
def optionText30 : Str := ['P','r','o','d','u','c','e',' ','o','u','t','p','u','t',' ','s','i','m','i','l','a','r',' ','t','o',' ','`','l','s',' ','-','l','`','.']
/-- libff/arguments.py:137 -/
def optionText31 : Str := ['S','o','r','t',' ','e','n','t','r','i','e','s',' ','b','y',' ','p','a','t','h',' ','o','r',' ','a','n','y',' ','o','t','h','e','r',' ','a','t','t',
  'r','i','b','u','t','e','.']
/-- libff/arguments.py:139 -/
def optionText32 : Str := ['R','e','v','e','r','s','e',' ','t','h','e',' ','s','o','r','t',' ','o','r','d','e','r','.']
/-- libff/arguments.py:142-144 -/
def optionText33 : Str := ['C','o','u','n','t',' ','t','h','e',' ','a','t','t','r','i','b','u','t','e','s',' ','f','r','o','m',' ','<','a','t','t','r','i','b','u','t','e','-',
  'l','i','s','t','>',' ','a','n','d',' ','p','r','i','n','t',' ','s','t','a','t','i','s','t','i','c','s',',',' ','i','n','s','t','e','a','d',' ','o','f',' ','t','h','e',' ',
  'r','e','s','u','l','t',',',' ','t','h','e',' ','d','e','f','a','u','l','t',' ','i','s',' ','t','o',' ','c','o','u','n','t',' ','t','h','e',' ','t','o','t','a','l',' ','s',
  'i','z','e',' ','a','n','d',' ','t','h','e',' ','f','i','l','e',' ','t','y','p','e','s',' ','o','f',' ','t','h','e',' ','e','n','t','r','i','e','s',' ','f','o','u','n','d',
  '.',' ','A','d','d',' ','-','-','j','s','o','n',' ','f','o','r',' ','J','S','O','N',' ','o','u','t','p','u','t','.']
/-- libff/arguments.py:146-154 -/
def optionText34 : Str := ['L','i','m','i','t',' ','o','u','t','p','u','t',' ','t','o',' ','a',' ','s','l','i','c','e',' ','o','f',' ','t','h','e',' ','s','e','a','r','c','h',
  ' ','r','e','s','u','l','t','s','.',' ','A',' ','<','s','l','i','c','e','>',' ','i','s',' ','d','e','f','i','n','e','d',' ','b','y',' ','e','i','t','h','e','r',' ','\'','<',
  's','t','a','r','t','>',':','<','s','t','o','p','>','\'',' ','o','r',' ','\'','<','p','a','g','e','s','i','z','e','>',',','<','p','a','g','e','>','\'','.',' ','I','n',' ',
  't','h','e',' ','f','i','r','s','t',' ','f','o','r','m',' ','b','o','t','h',' ','<','s','t','a','r','t','>',' ','a','n','d',' ','<','s','t','o','p','>',' ','m','a','y',' ',
  'b','e',' ','o','m','i','t','t','e','d',' ','w','h','i','c','h',' ','m','e','a','n','s',' ','t','h','e','y',' ','d','e','f','a','u','l','t',' ','t','o',' ','t','h','e',' ',
  'b','e','g','i','n','n','i','n','g',' ','a','n','d',' ','e','n','d',' ','o','f',' ','t','h','e',' ','l','i','s','t',' ','o','f',' ','r','e','s','u','l','t','s',' ','r','e',
  's','p','e','c','t','i','v','e','l','y','.',' ','I','f',' ','<','s','t','a','r','t','>',' ','o','r',' ','<','s','t','o','p','>',' ','a','r','e',' ','n','e','g','a','t','i',
  'v','e',' ','t','h','e','i','r',' ','p','o','s','i','t','i','o','n',' ','i','s',' ','r','e','l','a','t','i','v','e',' ','t','o',' ','t','h','e',' ','e','n','d',' ','o','f',
  ' ','t','h','e',' ','l','i','s','t','.',' ','T','h','e',' ','s','e','c','o','n','d',' ','f','o','r','m',' ','c','r','e','a','t','e','s',' ','a',' ','s','l','i','c','e',' ',
  'o','f',' ','<','p','a','g','e','s','i','z','e','>',' ','r','e','s','u','l','t','s',' ','s','t','a','r','t','i','n','g',' ','a','t',' ','a',' ','p','a','g','e',' ','o','f',
  'f','s','e','t',' ','s','p','e','c','i','f','i','e','d',' ','b','y',' ','<','p','a','g','e','>',' ','(','s','t','a','r','t','i','n','g',' ','w','i','t','h',' ','0',')','.',
  ' ','N','o','t','e',':',' ','I','t',' ','i','s',' ','r','e','c','o','m','m','e','n','d','e','d',' ','t','o',' ','s','o','r','t',' ','t','h','e',' ','r','e','s','u','l','t',
  ' ','l','i','s','t',' ','w','i','t','h',' ','-','S','/','-','-','s','o','r','t',' ','w','h','e','n',' ','u','s','i','n','g',' ','t','h','i','s',' ','o','p','t','i','o','n',
  ',',' ','o','t','h','e','r','w','i','s','e',' ','t','h','e',' ','o','r','d','e','r',' ','o','f',' ','r','e','s','u','l','t','s',' ','b','e','t','w','e','e','n',' ','c','o',
  'n','s','e','c','u','t','i','v','e',' ','r','u','n','s',' ','i','s',' ','p','r','o','b','a','b','l','y',' ','i','n','c','o','n','s','i','s','t','e','n','t','.']
/-- libff/arguments.py:156 -/
def optionText35 : Str := ['L','i','m','i','t',' ','o','u','t','p','u','t',' ','t','o',' ','o','n','l','y',' ','t','h','e',' ','f','i','r','s','t',' ','e','n','t','r','y','.']
/-- libff/arguments.py:158-159 -/
def optionText36 : Str := ['P','r','i','n','t',' ','e','a','c','h',' ','e','n','t','r','y',' ','b','y',' ','u','s','i','n','g',' ','a',' ','t','e','m','p','l','a','t','e',' ',
  'o','f',' ','c','o','m','m','a','-','s','e','p','a','r','a','t','e','d',' ','a','t','t','r','i','b','u','t','e','s','.',' ','T','h','e',' ','s','p','e','c','i','a','l',' ',
  'v','a','l','u','e',' ','\'','f','i','l','e','\'',' ','s','t','a','n','d','s',' ','f','o','r',' ','a','l','l',' ','f','i','l','e',' ','a','t','t','r','i','b','u','t','e','s',
  '.']
/-- libff/arguments.py:161 -/
def optionText37 : Str := ['S','e','p','a','r','a','t','e',' ','e','a','c','h',' ','a','t','t','r','i','b','u','t','e',' ','o','f',' ','-','-','o','u','t','p','u','t',' ','w',
  'i','t','h',' ','<','s','t','r','i','n','g','>',',',' ','d','e','f','a','u','l','t',' ','i','s',' ','a',' ','s','i','n','g','l','e',' ','s','p','a','c','e','.']
/-- libff/arguments.py:163 -/
def optionText38 : Str := ['S','h','o','w',' ','a','l','l',' ','e','n','t','r','i','e','s',' ','i','n','c','l','u','d','i','n','g',' ','t','h','e',' ','o','n','e','s',' ','w',
  'i','t','h',' ','m','i','s','s','i','n','g',' ','a','t','t','r','i','b','u','t','e',' ','v','a','l','u','e','s','.']
/-- libff/arguments.py:165 -/
def optionText39 : Str := ['P','r','i','n','t',' ','a','t','t','r','i','b','u','t','e','s',' ','a','s',' ','o','n','e',' ','b','i','g',' ','j','s','o','n',' ','o','b','j','e',
  'c','t',' ','t','o',' ','s','t','d','o','u','t','.']
/-- libff/arguments.py:167 -/
def optionText40 : Str := ['P','r','i','n','t',' ','a','t','t','r','i','b','u','t','e','s',' ','a','s',' ','j','s','o','n','l',' ','(','o','n','e',' ','j','s','o','n',' ','o',
  'b','j','e','c','t',' ','p','e','r',' ','l','i','n','e',')',' ','t','o',' ','s','t','d','o','u','t','.']
/-- libff/arguments.py:169 -/
def optionText41 : Str := ['P','a','r','s','e',' ','a','n','d',' ','p','r','i','n','t',' ','f','i','l','e',' ','s','i','z','e','s',' ','i','n',' ','u','n','i','t','s',' ','o',
  'f',' ','1','K','=','1','0','0','0',' ','b','y','t','e','s',' ','i','n','s','t','e','a','d',' ','o','f',' ','1','K','=','1','0','2','4',' ','b','y','t','e','s','.']

/-- libff/arguments.py:50-171: the help texts by the first spelling of the option -/
def optionTexts : List (Str × Str) := [
  (['t','e','s','t','s'], optionText0),
  (['-','-','p','r','o','f','i','l','e'], optionText1),
  (['-','-','d','e','b','u','g'], optionText2),
  (['-','-','c','a','c','h','e'], optionText3),
  (['-','-','n','o','-','c','a','c','h','e'], optionText4),
  (['-','-','c','l','e','a','n','-','c','a','c','h','e'], optionText5),
  (['-','j'], optionText6),
  (['-','D'], optionText7),
  (['-','h'], optionText8),
  (['-','-','v','e','r','s','i','o','n'], optionText9),
  (['-','-','h','e','l','p','-','f','u','l','l'], optionText10),
  (['-','-','h','e','l','p','-','a','t','t','r','i','b','u','t','e','s'], optionText11),
  (['-','-','h','e','l','p','-','p','l','u','g','i','n','s'], optionText12),
  (['-','-','h','e','l','p','-','t','y','p','e','s'], optionText13),
  (['-','e'], optionText14),
  (['-','H'], optionText15),
  (['-','I'], optionText16),
  (['-','-','n','o','-','p','a','r','e','n','t','-','i','g','n','o','r','e'], optionText17),
  (['-','-','i','g','n','o','r','e','-','f','i','l','e','s'], optionText18),
  (['-','d'], optionText19),
  (['-','c'], optionText20),
  (['-','L'], optionText21),
  (['-','-','o','n','e','-','f','i','l','e','-','s','y','s','t','e','m'], optionText22),
  (['-','-','f','a','i','l'], optionText23),
  (['-','x'], optionText24),
  (['-','X'], optionText25),
  (['-','-','h','a','l','t'], optionText26),
  (['-','C'], optionText27),
  (['-','a'], optionText28),
  (['-','0'], optionText29),
  (['-','v'], optionText30),
  (['-','S'], optionText31),
  (['-','R'], optionText32),
  (['-','-','c','o','u','n','t'], optionText33),
  (['-','l'], optionText34),
  (['-','1'], optionText35),
  (['-','o'], optionText36),
  (['-','-','s','e','p'], optionText37),
  (['-','-','a','l','l'], optionText38),
  (['-','-','j','s','o','n'], optionText39),
  (['-','-','j','s','o','n','l'], optionText40),
  (['-','-','s','i'], optionText41)]

/-- libff/arguments.py:50-171 `help` of each option -/
def ffText (o : ArgOpt) : Str := (optionTexts.lookup (o.strings.headD [])).getD []

end FF
