import Verif.Model.PyStr
/-! The template of the manual, /repo/libff/manpage.template, as lists of characters, which are checked faster than strings. -/
namespace FF

/-- libff/manpage.template:1-20 -/
def manpageTemplate0 : List Str := [
  ['N','A','M','E'],
  [' ',' ',' ',' ','f','f',' ','-',' ','F','i','n','d',' ','f','i','l','e','s',' ','i','n',' ','t','h','e',' ','f','i','l','e','s','y','s','t','e','m'],
  [],
  ['S','Y','N','O','P','S','I','S'],
  [' ',' ',' ',' ',':',':','u','s','a','g','e'],
  [],
  ['D','E','S','C','R','I','P','T','I','O','N'],
  [' ',' ',' ',' ','f','f','(','1',')',' ','i','s',' ','a',' ','t','o','o','l',' ','f','o','r',' ','f','i','n','d','i','n','g',' ','f','i','l','e','s',' ','i','n',' ','t','h','e',' ','f','i','l','e','s','y','s','t','e','m',' ','t','h','a','t',' ','a','l','l',' ','s','h','a','r','e',' ','a',' ','s','e','t',' ','o','f'],
  [' ',' ',' ',' ','c','o','m','m','o','n',' ','f','e','a','t','u','r','e','s','.',' ','I','t','s',' ','s','c','o','p','e',' ','i','s',' ','s','i','m','i','l','a','r',' ','t','o',' ','f','i','n','d','(','1',')',' ','a','n','d',' ','f','d','(','1',')',' ','b','u','t',' ','i','t',' ','a','i','m','s'],
  [' ',' ',' ',' ','a','t',' ','b','e','i','n','g',' ','m','o','r','e',' ','a','c','c','e','s','s','i','b','l','e',' ','a','n','d',' ','e','a','s','i','e','r',' ','t','o',' ','u','s','e',' ','t','h','a','n',' ','f','i','n','d','(','1',')',' ','a','n','d',' ','m','o','r','e',' ','v','e','r','s','a','t','i','l','e'],
  [' ',' ',' ',' ','a','n','d',' ','p','o','w','e','r','f','u','l',' ','t','h','a','n',' ','f','d','(','1',')','.'],
  [],
  [' ',' ',' ',' ','f','f','(','1',')',' ','e','v','a','l','u','a','t','e','s',' ','a','n',' ','e','x','p','r','e','s','s','i','o','n',' ','(','a',' ','s','e','t',' ','o','f',' ','t','e','s','t','s',')',' ','f','o','r',' ','a','l','l',' ','e','n','t','r','i','e','s',' ','i','t',' ','f','i','n','d','s',' ','i','n'],
  [' ',' ',' ',' ','a',' ','s','e','t',' ','o','f',' ','d','i','r','e','c','t','o','r','i','e','s',' ','a','n','d',' ','p','r','i','n','t','s',' ','t','h','o','s','e',' ','t','h','a','t',' ','m','a','t','c','h','.',' ','A','n',' ','e','m','p','t','y',' ','e','x','p','r','e','s','s','i','o','n'],
  [' ',' ',' ',' ','d','e','f','a','u','l','t','s',' ','t','o',' ','t','r','u','e','.',' ','W','i','t','h','o','u','t',' ','a',' ','d','i','r','e','c','t','o','r','y',' ','a','r','g','u','m','e','n','t',' ','t','h','e',' ','c','u','r','r','e','n','t',' ','d','i','r','e','c','t','o','r','y',' ','i','s'],
  [' ',' ',' ',' ','u','s','e','d',' ','a','s',' ','t','h','e',' ','s','t','a','r','t','i','n','g',' ','p','o','i','n','t','.'],
  [],
  [' ',' ',' ',' ','D','i','r','e','c','t','o','r','y',' ','n','a','m','e','s',' ','m','a','y',' ','b','e',' ','a','t',' ','t','h','e',' ','s','t','a','r','t',' ','o','r',' ','t','h','e',' ','e','n','d',' ','o','f',' ','t','h','e',' ','l','i','s','t',' ','o','f',' ','a','r','g','u','m','e','n','t','s','.'],
  [' ',' ',' ',' ','T','h','e','y',' ','a','r','e',' ','i','d','e','n','t','i','f','i','e','d',' ','a','s',' ','d','i','r','e','c','t','o','r','i','e','s',' ','i','f',' ','t','h','e','y',' ','c','o','n','t','a','i','n',' ','a','t',' ','l','e','a','s','t',' ','o','n','e',' ','\'','/','\'',' ','a','n','d'],
  [' ',' ',' ',' ','p','o','i','n','t',' ','t','o',' ','a','n',' ','e','x','i','s','t','i','n','g',' ','n','a','m','e',' ','i','n',' ','t','h','e',' ','f','i','l','e','s','y','s','t','e','m','.',' ','H','o','w','e','v','e','r',',',' ','d','i','r','e','c','t','o','r','i','e','s',' ','c','a','n',' ','b','e']]

/-- libff/manpage.template:21-40 -/
def manpageTemplate1 : List Str := [
  [' ',' ',' ',' ','e','x','p','l','i','c','i','t','l','y',' ','s','p','e','c','i','f','i','e','d',' ','u','s','i','n','g',' ','t','h','e',' ','-','D','/','-','-','d','i','r','e','c','t','o','r','y',' ','o','p','t','i','o','n',',',' ','i','n',' ','w','h','i','c','h',' ','c','a','s','e'],
  [' ',' ',' ',' ','a','u','t','o','-','d','e','t','e','c','t','i','o','n',' ','w','i','l','l',' ','n','o','t',' ','b','e',' ','u','s','e','d','.'],
  [],
  [' ',' ',' ',' ','f','f','(','1',')',' ','u','s','e','s',' ','p','a','r','a','l','l','e','l',' ','p','r','o','c','e','s','s','e','s',' ','t','o',' ','s','p','e','e','d',' ','u','p',' ','s','e','a','r','c','h','i','n','g',' ','b','y',' ','d','e','f','a','u','l','t','.',' ','T','h','e',' ','n','u','m','b','e','r',' ','o','f'],
  [' ',' ',' ',' ','p','r','o','c','e','s','s','e','s',' ','d','e','p','e','n','d','s',' ','o','n',' ','t','h','e',' ','n','u','m','b','e','r',' ','o','f',' ','C','P','U',' ','c','o','r','e','s',' ','a','n','d',' ','c','a','n',' ','b','e',' ','c','o','n','t','r','o','l','l','e','d',' ','w','i','t','h'],
  [' ',' ',' ',' ','-','j','/','-','-','j','o','b','s','.'],
  [],
  ['O','P','T','I','O','N','S'],
  [' ',' ',' ',' ',':',':','h','e','l','p'],
  [],
  ['T','E','S','T','S'],
  [' ',' ',' ',' ','T','h','e',' ','e','x','p','r','e','s','s','i','o','n',' ','i','s',' ','m','a','d','e',' ','u','p',' ','o','f',' ','a',' ','s','e','t',' ','o','f',' ','t','e','s','t','s','.',' ','A',' ','t','e','s','t',' ','h','a','s',' ','t','h','e',' ','f','o','r','m',':'],
  [],
  [' ',' ',' ',' ','`','`','<','[','p','l','u','g','i','n','.',']','a','t','t','r','i','b','u','t','e','>','<','o','p','e','r','a','t','o','r','>','<','v','a','l','u','e','>','`','`'],
  [],
  [' ',' ',' ',' ','A',' ','t','e','s','t',' ','c','o','m','p','a','r','e','s',' ','a',' ','<','v','a','l','u','e','>',' ','(','o','r',' ','p','a','t','t','e','r','n',')',' ','w','i','t','h',' ','t','h','e',' ','v','a','l','u','e',' ','o','f',' ','a','n',' ','<','a','t','t','r','i','b','u','t','e','>',' ','o','f'],
  [' ',' ',' ',' ','a',' ','f','i','l','e','s','y','s','t','e','m',' ','e','n','t','r','y','.',' ','T','h','e',' ','t','y','p','e',' ','o','f',' ','c','o','m','p','a','r','i','s','o','n',' ','p','e','r','f','o','r','m','e','d',' ','i','s',' ','i','n','d','i','c','a','t','e','d',' ','b','y',' ','t','h','e'],
  [' ',' ',' ',' ','<','o','p','e','r','a','t','o','r','>','.',' ','F','o','r',' ','e','x','a','m','p','l','e',':'],
  [],
  [' ',' ',' ',' ','`','`','f','i','l','e','.','p','a','t','h',':','f','o','o','`','`']]

/-- libff/manpage.template:41-60 -/
def manpageTemplate2 : List Str := [
  [],
  [' ',' ',' ',' ','T','h','e',' ','e','x','a','m','p','l','e',' ','t','e','s','t',' ','e','v','a','l','u','a','t','e','s',' ','t','o',' ','t','r','u','e',' ','i','f',' ','t','h','e',' ','p','a','t','h','n','a','m','e',' ','a','t','t','r','i','b','u','t','e'],
  [' ',' ',' ',' ','(','\'','p','a','t','h','\'',')',' ','o','f',' ','t','h','e',' ','f','i','l','e','s','y','s','t','e','m',' ','e','n','t','r','y',' ','(','a','s',' ','p','r','o','v','i','d','e','d',' ','b','y',' ','t','h','e',' ','\'','f','i','l','e','\'',' ','p','l','u','g','i','n',')'],
  [' ',' ',' ',' ','c','o','n','t','a','i','n','s',' ','(','\'',':','\'',')',' ','t','h','e',' ','s','u','b','s','t','r','i','n','g',' ','\'','f','o','o','\'','.'],
  [],
  ['A','T','T','R','I','B','U','T','E','S'],
  [' ',' ',' ',' ','f','f','(','1',')',' ','o','f','f','e','r','s',' ','a',' ','w','i','d','e',' ','v','a','r','i','e','t','y',' ','o','f',' ','f','i','l','e',' ','a','t','t','r','i','b','u','t','e','s',' ','t','o',' ','t','e','s','t',' ','f','o','r','.',' ','A','t','t','r','i','b','u','t','e','s',' ','a','r','e'],
  [' ',' ',' ',' ','p','r','o','v','i','d','e','d',' ','b','y',' ','p','l','u','g','i','n','s','.',' ','E','s','s','e','n','t','i','a','l',' ','p','l','u','g','i','n','s',' ','l','i','k','e',' ','\'','f','i','l','e','\'',' ','a','n','d',' ','\'','m','i','m','e','\'',' ','a','r','e',' ','b','u','i','l','t',' ','i','n',','],
  [' ',' ',' ',' ','b','u','t',' ','y','o','u',' ','c','a','n',' ','a','l','s','o',' ','a','d','d',' ','y','o','u','r',' ','o','w','n',' ','p','l','u','g','i','n','s',' ','w','r','i','t','t','e','n',' ','i','n',' ','p','y','t','h','o','n','(','1',')','.'],
  [],
  [' ',' ',' ',' ','T','h','e',' ','f','u','l','l',' ','n','a','m','e',' ','o','f',' ','a','n',' ','a','t','t','r','i','b','u','t','e',' ','c','o','n','s','i','s','t','s',' ','o','f',' ','t','h','e',' ','<','p','l','u','g','i','n','>',' ','n','a','m','e',',',' ','a',' ','d','o','t',',',' ','a','n','d',' ','t','h','e'],
  [' ',' ',' ',' ','<','a','t','t','r','i','b','u','t','e','>',' ','n','a','m','e','.',' ','T','h','e',' ','<','p','l','u','g','i','n','>',' ','n','a','m','e',' ','i','s',' ','o','p','t','i','o','n','a','l',' ','a','s',' ','l','o','n','g',' ','a','s',' ','t','h','e',' ','<','a','t','t','r','i','b','u','t','e','>'],
  [' ',' ',' ',' ','n','a','m','e',' ','i','s',' ','u','n','i','q','u','e',' ','a','m','o','n','g',' ','a','l','l',' ','p','l','u','g','i','n','s','.',' ','I','t',' ','i','s',' ','a','n',' ','e','r','r','o','r',' ','i','f',' ','a','n',' ','a','t','t','r','i','b','u','t','e',' ','n','a','m','e',' ','i','n',' ','a'],
  [' ',' ',' ',' ','t','e','s','t',' ','i','s',' ','a','m','b','i','g','u','o','u','s','.',' ','T','h','e',' ','o','n','l','y',' ','e','x','c','e','p','t','i','o','n',' ','i','s',' ','t','h','e',' ','\'','f','i','l','e','\'',' ','p','l','u','g','i','n',' ','w','h','o','s','e',' ','a','t','t','r','i','b','u','t','e'],
  [' ',' ',' ',' ','n','a','m','e','s',' ','a','r','e',' ','a','l','l',' ','g','l','o','b','a','l',',',' ','a','l','w','a','y','s',' ','t','a','k','e',' ','p','r','e','c','e','d','e','n','c','e',' ','a','n','d',' ','w','i','l','l',' ','n','e','v','e','r',' ','p','r','o','d','u','c','e',' ','a','n'],
  [' ',' ',' ',' ','e','r','r','o','r','.',' ','H','o','w','e','v','e','r',',',' ','i','t',' ','i','s',' ','g','o','o','d',' ','p','r','a','c','t','i','c','e',' ','t','o',' ','a','l','w','a','y','s',' ','u','s','e',' ','t','h','e',' ','f','u','l','l',' ','a','t','t','r','i','b','u','t','e',' ','n','a','m','e','.'],
  [],
  [' ',' ',' ',' ','I','t',' ','i','s',' ','r','e','c','o','m','m','e','n','d','e','d',' ','t','o',' ','q','u','o','t','e',' ','e','i','t','h','e','r',' ','t','h','e',' ','v','a','l','u','e',' ','o','r',' ','t','h','e',' ','w','h','o','l','e',' ','t','e','s','t',' ','t','o',' ','p','r','e','v','e','n','t'],
  [' ',' ',' ',' ','t','h','e',' ','s','h','e','l','l',' ','f','r','o','m',' ','i','n','t','e','r','p','r','e','t','i','n','g',' ','s','p','e','c','i','a','l',' ','c','h','a','r','a','c','t','e','r','s',' ','l','i','k','e',' ','\'','*','\'',',',' ','\'','(','\'',',',' ','\'',')','\'',',',' ','\'','<','\'',','],
  [' ',' ',' ',' ','\'','>','\'',',',' ','\'','!','\'',',',' ','e','t','c','.']]

/-- libff/manpage.template:61-80 -/
def manpageTemplate3 : List Str := [
  [],
  [' ',' ',' ',' ','T','e','s','t','s',' ','m','a','y',' ','b','e',' ','g','r','o','u','p','e','d',' ','w','i','t','h',' ','\'','A','N','D','\'',' ','a','n','d',' ','\'','O','R','\'',' ','o','p','e','r','a','t','o','r','s',' ','a','n','d',' ','p','a','r','e','n','t','h','e','s','i','s','.',' ','\'','A','N','D','\''],
  [' ',' ',' ',' ','i','s',' ','i','m','p','l','i','e','d',' ','a','n','d',' ','c','a','n',' ','b','e',' ','o','m','i','t','t','e','d','.',' ','P','l','e','a','s','e',' ','n','o','t','e',' ','t','h','a','t',' ','p','a','r','e','n','t','h','e','s','i','s',' ','\'','(','\'',' ','a','n','d',' ','\'',')','\''],
  [' ',' ',' ',' ','m','u','s','t',' ','b','e',' ','e','s','c','a','p','e','d',' ','o','r',' ','q','u','o','t','e','d',' ','p','r','o','p','e','r','l','y',' ','t','o',' ','p','r','e','v','e','n','t',' ','t','h','e',' ','s','h','e','l','l',' ','f','r','o','m',' ','i','n','t','e','r','p','r','e','t','i','n','g'],
  [' ',' ',' ',' ','t','h','e','m','.',' ','I','t',' ','i','s',' ','r','e','c','o','m','m','e','n','d','e','d',' ','t','o',' ','u','s','e',' ','t','h','e',' ','a','l','t','e','r','n','a','t','i','v','e',' ','f','o','r','m','s',' ','\'','{','{','\'',' ','a','n','d',' ','\'','}','}','\'','.'],
  [],
  [' ',' ',' ',' ','F','o','r',' ','m','o','r','e',' ','i','n','f','o','r','m','a','t','i','o','n',' ','a','b','o','u','t',' ','w','h','i','c','h',' ','a','t','t','r','i','b','u','t','e','s',' ','t','h','e','r','e',' ','a','r','e',' ','a','v','a','i','l','a','b','l','e',' ','u','s','e'],
  [' ',' ',' ',' ','`','f','f',' ','-','-','h','e','l','p','-','a','t','t','r','i','b','u','t','e','s','`','.'],
  [],
  ['T','Y','P','E','S'],
  [' ',' ',' ',' ','E','a','c','h',' ','a','t','t','r','i','b','u','t','e',' ','h','a','s',' ','a',' ','c','e','r','t','a','i','n',' ','t','y','p','e',' ','a','s','s','i','g','n','e','d',' ','t','o',' ','i','t',' ','t','h','a','t',' ','d','e','s','c','r','i','b','e','s',' ','h','o','w',' ','i','t','s'],
  [' ',' ',' ',' ','v','a','l','u','e',' ','i','s',' ','s','u','p','p','o','s','e','d',' ','t','o',' ','b','e',' ','i','n','t','e','r','p','r','e','t','e','d',' ','a','n','d',' ','w','h','i','c','h',' ','o','p','e','r','a','t','o','r','s',' ','i','t',' ','s','u','p','p','o','r','t','s','.',' ','A','l','s','o',','],
  [' ',' ',' ',' ','t','h','e',' ','t','y','p','e',' ','d','e','f','i','n','e','s',' ','h','o','w',' ','a',' ','v','a','l','u','e',' ','i','n',' ','a',' ','t','e','s','t',' ','p','r','o','v','i','d','e','d',' ','b','y',' ','t','h','e',' ','u','s','e','r',' ','i','s',' ','s','u','p','p','o','s','e','d',' ','t','o'],
  [' ',' ',' ',' ','b','e',' ','p','a','r','s','e','d','.'],
  [],
  [' ',' ',' ',' ','B','e','s','i','d','e',' ','t','h','e',' ','c','o','m','m','o','n',' ','\'','s','t','r','i','n','g','\'',',',' ','\'','n','u','m','b','e','r','\'',' ','a','n','d',' ','\'','b','o','o','l','e','a','n','\'',' ','t','y','p','e','s',' ','t','h','e','r','e',' ','a','r','e',' ','t','y','p','e','s'],
  [' ',' ',' ',' ','f','o','r',' ','f','i','l','e',' ','s','i','z','e','s',',',' ','f','i','l','e',' ','p','e','r','m','i','s','s','i','o','n','s',',',' ','t','i','m','e','s','t','a','m','p','s',',',' ','d','u','r','a','t','i','o','n','s',' ','e','t','c','.'],
  [],
  [' ',' ',' ',' ','B','o','o','l','e','a','n',' ','v','a','l','u','e','s',' ','m','a','y',' ','b','e',' ','o','n','e',' ','o','f',' ','\'','t','r','u','e','\'',',',' ','\'','t','\'',',',' ','\'','1','\'',',',' ','\'','y','e','s','\'',',',' ','\'','y','\'',',',' ','\'','o','n','\'',' ','o','r',' ','\'','f','a','l','s','e','\'',','],
  [' ',' ',' ',' ','\'','f','\'',',',' ','\'','0','\'',',',' ','\'','n','o','\'',',',' ','\'','n','\'',',',' ','\'','o','f','f','\'','.',' ','C','a','s','e',' ','i','s',' ','i','g','n','o','r','e','d','.']]

/-- libff/manpage.template:81-100 -/
def manpageTemplate4 : List Str := [
  [],
  [' ',' ',' ',' ','F','i','l','e',' ','s','i','z','e',' ','v','a','l','u','e','s',' ','a','r','e',' ','p','a','r','s','e','d',' ','a','s',' ','p','o','s','i','t','i','v','e',' ','i','n','t','e','g','e','r','s',' ','o','r',' ','f','l','o','a','t','i','n','g',' ','p','o','i','n','t',' ','n','u','m','b','e','r','s'],
  [' ',' ',' ',' ','f','o','l','l','o','w','e','d',' ','b','y',' ','a',' ','s','i','z','e',' ','u','n','i','t','.',' ','T','h','e',' ','u','n','i','t','s',' ','\'','K','\'',',',' ','\'','M','\'',',',' ','\'','G','\'',',',' ','\'','T','\'',' ','e','t','c','.',' ','u','s','e',' ','1','0','2','4',' ','a','s'],
  [' ',' ',' ',' ','b','a','s','e',',',' ','t','h','e',' ','u','n','i','t','s',' ','\'','K','B','\'',',',' ','\'','K','i','B','\'',',',' ','\'','M','B','\'',',',' ','\'','M','i','B','\'',',',' ','\'','G','B','\'',',',' ','\'','G','i','B','\'',',',' ','\'','T','B','\'',',',' ','\'','T','i','B','\'',' ','u','s','e',' ','1','0','0','0'],
  [' ',' ',' ',' ','a','s',' ','b','a','s','e','.',' ','C','a','s','e',' ','i','s',' ','i','g','n','o','r','e','d','.'],
  [],
  [' ',' ',' ',' ','F','i','l','e',' ','m','o','d','e',' ','v','a','l','u','e','s',' ','a','r','e',' ','s','u','p','p','o','s','e','d',' ','t','o',' ','b','e',' ','i','n','p','u','t',' ','a','s',' ','a','n',' ','o','c','t','a','l',' ','n','u','m','b','e','r',' ','o','r',' ','i','n',' ','s','y','m','b','o','l','i','c'],
  [' ',' ',' ',' ','f','i','l','e',' ','m','o','d','e',' ','n','o','t','a','t','i','o','n',' ','(','s','e','e',' ','f','i','n','d','(','1',')','\'','s',' ','-','p','e','r','m',' ','o','p','t','i','o','n',')','.'],
  [],
  [' ',' ',' ',' ','T','i','m','e','s','t','a','m','p','s',' ','a','r','e',' ','s','t','o','r','e','d',' ','a','s',' ','s','e','c','o','n','d','s',' ','s','i','n','c','e',' ','1','9','7','0','-','0','1','-','0','1',' ','0','0',':','0','0',':','0','0','.',' ','T','h','e','r','e',' ','a','r','e',' ','a'],
  [' ',' ',' ',' ','n','u','m','b','e','r',' ','o','f',' ','p','r','e','d','e','f','i','n','e','d',' ','d','a','t','e',' ','a','n','d',' ','t','i','m','e',' ','i','n','p','u','t',' ','p','a','r','s','i','n','g',' ','p','a','t','t','e','r','n','s',':'],
  [],
  [' ',' ',' ',' ',':',':','t','i','m','e','_','p','a','t','t','e','r','n','s'],
  [],
  [' ',' ',' ',' ','I','f',' ','n','o','n','e',' ','o','f',' ','t','h','e',' ','p','a','t','t','e','r','n','s',' ','a','b','o','v','e',' ','m','a','t','c','h','e','s',' ','a','n','d',' ','t','h','e',' ','v','a','l','u','e',' ','i','s',' ','a',' ','p','l','a','i','n',' ','n','u','m','b','e','r',' ','i','t',' ','i','s'],
  [' ',' ',' ',' ','i','n','t','e','r','p','r','e','t','e','d',' ','a','s',' ','s','e','c','o','n','d','s',' ','s','i','n','c','e',' ','1','9','7','0','.'],
  [],
  [' ',' ',' ',' ','D','u','r','a','t','i','o','n','s',' ','c','o','n','s','i','s','t',' ','o','f',' ','o','n','e',' ','o','r',' ','m','o','r','e',' ','p','a','r','t','i','a','l',' ','t','i','m','e',' ','d','e','s','i','g','n','a','t','i','o','n','s',' ','t','h','a','t',' ','a','r','e',' ','s','u','m','m','e','d'],
  [' ',' ',' ',' ','u','p',',',' ','e','.','g','.',':'],
  []]

/-- libff/manpage.template:101-120 -/
def manpageTemplate5 : List Str := [
  [' ',' ',' ',' ',' ',' ',' ',' ','`','`','1','h','3','0','m','2','5','s','`','`'],
  [],
  [' ',' ',' ',' ','T','h','e',' ','v','a','l','i','d',' ','u','n','i','t','s',' ','a','r','e',':',' ','\'','s','\'',' ','f','o','r',' ','s','e','c','o','n','d','s',',',' ','\'','m','\'',' ','f','o','r',' ','m','i','n','u','t','e','s',',',' ','\'','h','\'',' ','f','o','r',' ','h','o','u','r','s',',',' ','\'','d','\'',' ','f','o','r'],
  [' ',' ',' ',' ','d','a','y','s',',',' ','\'','w','\'',' ','f','o','r',' ','w','e','e','k','s',' ','(','7',' ','d','a','y','s',')',',',' ','\'','M','\'',' ','f','o','r',' ','m','o','n','t','h','s',' ','(','3','0',' ','d','a','y','s',')',' ','a','n','d',' ','\'','y','\'',' ','f','o','r',' ','y','e','a','r','s',' ','(','3','6','5'],
  [' ',' ',' ',' ','d','a','y','s',')','.',' ','I','f',' ','n','o',' ','u','n','i','t',' ','i','s',' ','g','i','v','e','n',' ','\'','m','\'',' ','f','o','r',' ','m','i','n','u','t','e','s',' ','i','s',' ','a','s','s','u','m','e','d','.'],
  [],
  [' ',' ',' ',' ','F','o','r',' ','m','o','r','e',' ','i','n','f','o','r','m','a','t','i','o','n',' ','a','b','o','u','t',' ','t','y','p','e','s',' ','u','s','e',' ','`','f','f',' ','-','-','h','e','l','p','-','t','y','p','e','s','`','.',' ','F','o','r',' ','i','n','f','o','r','m','a','t','i','o','n'],
  [' ',' ',' ',' ','a','b','o','u','t',' ','w','h','i','c','h',' ','a','t','t','r','i','b','u','t','e',' ','h','a','s',' ','w','h','i','c','h',' ','t','y','p','e',' ','u','s','e',' ','`','f','f',' ','-','-','h','e','l','p','-','a','t','t','r','i','b','u','t','e','s','`','.'],
  [],
  ['O','P','E','R','A','T','O','R','S'],
  [' ',' ',' ',' ','T','h','e',' ','t','h','i','r','d',' ','c','o','m','p','o','n','e','n','t',' ','i','n',' ','a',' ','t','e','s','t',' ','b','e','s','i','d','e',' ','t','h','e',' ','<','a','t','t','r','i','b','u','t','e','>',' ','a','n','d',' ','t','h','e',' ','<','v','a','l','u','e','>',' ','i','s',' ','t','h','e'],
  [' ',' ',' ',' ','<','o','p','e','r','a','t','o','r','>','.'],
  [],
  [' ',' ',' ',' ','T','h','e','r','e',' ','a','r','e',' ','o','p','e','r','a','t','o','r','s',' ','f','o','r',' ','n','u','m','b','e','r','-','b','a','s','e','d',' ','t','y','p','e','s',':'],
  [],
  [' ',' ',' ',' ','=',' ',' ',' ',' ',' ',' ',' ',' ',' ',' ','a','t','t','r','i','b','u','t','e',' ','i','s',' ','e','q','u','a','l',' ','t','o',' ','<','v','a','l','u','e','>'],
  [' ',' ',' ',' ','+','=',' ','o','r',' ','>','=',' ',' ',' ','a','t','t','r','i','b','u','t','e',' ','i','s',' ','g','r','e','a','t','e','r',' ','t','h','a','n',' ','o','r',' ','e','q','u','a','l',' ','t','o',' ','<','v','a','l','u','e','>'],
  [' ',' ',' ',' ','-','=',' ','o','r',' ','<','=',' ',' ',' ','a','t','t','r','i','b','u','t','e',' ','i','s',' ','l','e','s','s',' ','t','h','a','n',' ','o','r',' ','e','q','u','a','l',' ','t','o',' ','<','v','a','l','u','e','>'],
  [' ',' ',' ',' ','+',' ','o','r',' ','>',' ',' ',' ',' ',' ','a','t','t','r','i','b','u','t','e',' ','i','s',' ','g','r','e','a','t','e','r',' ','t','h','a','n',' ','<','v','a','l','u','e','>'],
  [' ',' ',' ',' ','-',' ','o','r',' ','<',' ',' ',' ',' ',' ','a','t','t','r','i','b','u','t','e',' ','i','s',' ','l','e','s','s',' ','t','h','a','n',' ','<','v','a','l','u','e','>']]

/-- libff/manpage.template:121-140 -/
def manpageTemplate6 : List Str := [
  [],
  [' ',' ',' ',' ','P','l','e','a','s','e',' ','n','o','t','e',' ','t','h','a','t',' ','t','h','e',' ','`','>','`',' ','a','n','d',' ','`','<','`',' ','c','h','a','r','a','c','t','e','r','s',' ','m','u','s','t',' ','b','e',' ','p','r','o','p','e','r','l','y',' ','q','u','o','t','e','d',' ','t','o',' ','a','v','o','i','d'],
  [' ',' ',' ',' ','b','e','i','n','g',' ','i','n','t','e','r','p','r','e','t','e','d',' ','a','s',' ','r','e','d','i','r','e','c','t','i','o','n','s',' ','b','y',' ','t','h','e',' ','s','h','e','l','l',',',' ','w','h','i','c','h',' ','i','s',' ','w','h','y',' ','t','h','e',' ','`','+','`',' ','a','n','d',' ','`','-','`'],
  [' ',' ',' ',' ','f','o','r','m','s',' ','a','r','e',' ','p','r','e','f','e','r','r','e','d','.'],
  [],
  [' ',' ',' ',' ','O','p','e','r','a','t','o','r','s',' ','f','o','r',' ','s','t','r','i','n','g','s',':'],
  [],
  [' ',' ',' ',' ','=',' ',' ',' ',' ',' ',' ',' ','a','t','t','r','i','b','u','t','e',' ','i','s',' ','e','q','u','a','l',' ','t','o',' ','<','v','a','l','u','e','>'],
  [' ',' ',' ',' ',':',' ',' ',' ',' ',' ',' ',' ','c','o','n','t','a','i','n','s',' ','s','u','b','s','t','r','i','n','g',' ','<','v','a','l','u','e','>'],
  [' ',' ',' ',' ','~',' ',' ',' ',' ',' ',' ',' ','m','a','t','c','h','e','s',' ','r','e','g','u','l','a','r',' ','e','x','p','r','e','s','s','i','o','n',' ','<','v','a','l','u','e','>'],
  [' ',' ',' ',' ','%',' ',' ',' ',' ',' ',' ',' ','m','a','t','c','h','e','s',' ','g','l','o','b',' ','p','a','t','t','e','r','n',' ','<','v','a','l','u','e','>'],
  [],
  [' ',' ',' ',' ','O','p','e','r','a','t','o','r','s',' ','f','o','r',' ','l','i','s','t','s',' ','o','f',' ','s','t','r','i','n','g','s',':'],
  [],
  [' ',' ',' ',' ','=',' ',' ',' ',' ',' ',' ',' ','o','n','e',' ','s','t','r','i','n','g',' ','i','n',' ','t','h','e',' ','l','i','s','t',' ','i','s',' ','e','q','u','a','l',' ','t','o',' ','<','v','a','l','u','e','>'],
  [' ',' ',' ',' ',':',' ',' ',' ',' ',' ',' ',' ','o','n','e',' ','s','t','r','i','n','g',' ','c','o','n','t','a','i','n','s',' ','s','u','b','s','t','r','i','n','g',' ','<','v','a','l','u','e','>'],
  [' ',' ',' ',' ','~',' ',' ',' ',' ',' ',' ',' ','o','n','e',' ','s','t','r','i','n','g',' ','m','a','t','c','h','e','s',' ','r','e','g','u','l','a','r',' ','e','x','p','r','e','s','s','i','o','n',' ','<','v','a','l','u','e','>'],
  [' ',' ',' ',' ','%',' ',' ',' ',' ',' ',' ',' ','o','n','e',' ','s','t','r','i','n','g',' ','m','a','t','c','h','e','s',' ','g','l','o','b',' ','p','a','t','t','e','r','n',' ','<','v','a','l','u','e','>'],
  [],
  [' ',' ',' ',' ','O','p','e','r','a','t','o','r','s',' ','f','o','r',' ','b','o','o','l','e','a','n','s',':']]

/-- libff/manpage.template:141-160 -/
def manpageTemplate7 : List Str := [
  [],
  [' ',' ',' ',' ','=',' ',' ',' ',' ',' ',' ',' ','a','t','t','r','i','b','u','t','e',' ','i','s',' ','e','q','u','a','l',' ','t','o',' ','<','v','a','l','u','e','>',',',' ','w','h','i','c','h',' ','m','a','y',' ','b','e',' ','o','n','e',' ','o','f',' ','\'','t','r','u','e','\'',',',' ','\'','t','\'',','],
  [' ',' ',' ',' ',' ',' ',' ',' ',' ',' ',' ',' ','\'','1','\'',',',' ','\'','y','e','s','\'',',',' ','\'','y','\'',',',' ','\'','o','n','\'',' ','o','r',' ','\'','f','a','l','s','e','\'',',',' ','\'','f','\'',',',' ','\'','0','\'',',',' ','\'','n','o','\'',',',' ','\'','n','\'',',',' ','\'','o','f','f','\'','.',' ','T','h','e'],
  [' ',' ',' ',' ',' ',' ',' ',' ',' ',' ',' ',' ','c','a','s','e',' ','i','s',' ','i','g','n','o','r','e','d','.'],
  [],
  [' ',' ',' ',' ','O','p','e','r','a','t','o','r','s',' ','f','o','r',' ','f','i','l','e',' ','m','o','d','e',':'],
  [],
  [' ',' ',' ',' ','=',' ',' ',' ',' ',' ',' ',' ','a','l','l',' ','b','i','t','s',' ','f','r','o','m',' ','t','h','e',' ','a','t','t','r','i','b','u','t','e',' ','a','r','e',' ','e','x','a','c','t','l','y',' ','e','q','u','a','l',' ','t','o',' ','<','v','a','l','u','e','>'],
  [' ',' ',' ',' ',':',' ',' ',' ',' ',' ',' ',' ','a','l','l',' ','b','i','t','s',' ','t','h','a','t',' ','a','r','e',' ','s','e','t',' ','i','n',' ','<','v','a','l','u','e','>',' ','a','r','e',' ','a','l','s','o',' ','s','e','t',' ','i','n',' ','t','h','e',' ','a','t','t','r','i','b','u','t','e'],
  [' ',' ',' ',' ','~',' ',' ',' ',' ',' ',' ',' ','a','n','y',' ','o','f',' ','t','h','e',' ','b','i','t','s',' ','t','h','a','t',' ','a','r','e',' ','s','e','t',' ','i','n',' ','<','v','a','l','u','e','>',' ','a','r','e',' ','s','e','t',' ','i','n',' ','t','h','e',' ','a','t','t','r','i','b','u','t','e'],
  [],
  ['P','A','T','T','E','R','N',' ','M','A','T','C','H','I','N','G'],
  [' ',' ',' ',' ','f','f','(','1',')',' ','i','s',' ','w','r','i','t','t','e','n',' ','i','n',' ','p','y','t','h','o','n','(','1',')',' ','a','n','d',' ','u','s','e','s',' ','t','h','e',' ','r','e','g','u','l','a','r',' ','e','x','p','r','e','s','s','i','o','n','s',' ','p','r','o','v','i','d','e','d',' ','b','y'],
  [' ',' ',' ',' ','t','h','e',' ','\'','r','e','\'',' ','m','o','d','u','l','e',' ','(','h','t','t','p','s',':','/','/','d','o','c','s','.','p','y','t','h','o','n','.','o','r','g','/','l','i','b','r','a','r','y','/','r','e','.','h','t','m','l',')','.'],
  [],
  [' ',' ',' ',' ','f','f','(','1',')',' ','d','o','e','s',' ','n','o','t',' ','u','s','e',' ','\'','g','l','o','b','\'',' ','m','o','d','u','l','e',' ','b','u','t',' ','i','n','s','t','e','a','d',' ','i','m','p','l','e','m','e','n','t','s',' ','i','t','s',' ','o','w','n',' ','g','l','o','b','(','7',')'],
  [' ',' ',' ',' ','p','a','t','t','e','r','n',' ','m','a','t','c','h','i','n','g',' ','t','h','a','t',' ','f','o','l','l','o','w','s',' ','t','h','e',' ','d','e','s','i','g','n',' ','f','r','o','m',' ','g','i','t','i','g','n','o','r','e','(','5',')','.',' ','D','e','v','i','a','t','i','n','g',' ','f','r','o','m'],
  [' ',' ',' ',' ','w','h','a','t',' ','y','o','u',' ','m','i','g','h','t',' ','e','x','p','e','c','t',',',' ','g','l','o','b',' ','p','a','t','t','e','r','n','s',' ','t','h','a','t',' ','s','t','a','r','t',' ','w','i','t','h',' ','a',' ','\'','/','\'',' ','m','a','t','c','h',' ','p','a','t','h'],
  [' ',' ',' ',' ','a','t','t','r','i','b','u','t','e','s',' ','f','r','o','m',' ','t','h','e',' ','b','e','g','i','n','n','i','n','g',' ','o','f',' ','t','h','e',' ','s','t','r','i','n','g',' ','r','e','g','a','r','d','l','e','s','s',' ','o','f',' ','w','h','e','t','h','e','r',' ','t','h','e'],
  [' ',' ',' ',' ','s','t','r','i','n','g',' ','i','t','s','e','l','f',' ','a','c','t','u','a','l','l','y',' ','s','t','a','r','t','s',' ','w','i','t','h',' ','a',' ','\'','/','\'','.',' ','T','h','i','s',' ','i','s',' ','m','o','r','e',' ','i','n',' ','a','c','c','o','r','d','a','n','c','e',' ','w','i','t','h']]

/-- libff/manpage.template:161-180 -/
def manpageTemplate8 : List Str := [
  [' ',' ',' ',' ','h','o','w',' ','g','i','t','i','g','n','o','r','e','(','5',')',' ','w','o','r','k','s',' ','a','n','d',' ','i','m','p','r','o','v','e','s',' ','m','a','t','c','h','i','n','g',' ','r','e','l','a','t','i','v','e',' ','p','a','t','h','s',' ','l','i','k','e'],
  [' ',' ',' ',' ','\'','f','i','l','e','.','r','e','l','p','a','t','h','\'',',',' ','\'','f','i','l','e','.','l','i','n','k','\'',' ','e','t','c','.'],
  [],
  ['F','I','L','E',' ','R','E','F','E','R','E','N','C','E','S'],
  [' ',' ',' ',' ','I','t',' ','i','s',' ','p','o','s','s','i','b','l','e',' ','t','o',' ','p','a','s','s',' ','a',' ','p','a','t','h',' ','o','f',' ','a',' ','f','i','l','e',' ','a','s',' ','r','e','f','e','r','e','n','c','e',' ','i','n','s','t','e','a','d',' ','o','f',' ','a',' ','<','v','a','l','u','e','>','.',' ','T','o'],
  [' ',' ',' ',' ','u','s','e',' ','a',' ','r','e','f','e','r','e','n','c','e',' ','y','o','u',' ','p','a','s','s',' ','a',' ','\'','{','}','\'',' ','f','o','l','l','o','w','e','d',' ','b','y',' ','t','h','e',' ','p','a','t','h',' ','n','a','m','e','.',' ','F','o','r',' ','e','x','a','m','p','l','e',',',' ','t','o'],
  [' ',' ',' ',' ','f','i','n','d',' ','a','l','l',' ','f','i','l','e','s',' ','n','e','w','e','r',' ','t','h','a','n',' ','f','o','o','/','b','a','r','/','e','x','a','m','p','l','e','.','t','x','t',' ','y','o','u',' ','d','o',':'],
  [],
  [' ',' ',' ',' ','$',' ','f','f',' ','m','t','i','m','e','+','{','}','f','o','o','/','b','a','r','/','e','x','a','m','p','l','e','.','t','x','t'],
  [],
  [' ',' ',' ',' ','T','h','e',' ','d','e','f','a','u','l','t',' ','b','e','h','a','v','i','o','r',' ','i','s',' ','t','o',' ','u','s','e',' ','t','h','e',' ','s','a','m','e',' ','a','t','t','r','i','b','u','t','e',' ','o','f',' ','t','h','e',' ','r','e','f','e','r','e','n','c','e','d',' ','f','i','l','e',' ','a','s'],
  [' ',' ',' ',' ','t','h','e',' ','o','n','e',' ','i','t',' ','i','s',' ','s','u','p','p','o','s','e','d',' ','t','o',' ','b','e',' ','c','o','m','p','a','r','e','d',' ','t','o',',',' ','b','u','t',' ','i','t',' ','i','s',' ','a','l','s','o',' ','p','o','s','s','i','b','l','e',' ','t','o',' ','u','s','e',' ','a'],
  [' ',' ',' ',' ','d','i','f','f','e','r','e','n','t',' ','o','n','e',':'],
  [],
  [' ',' ',' ',' ','$',' ','f','f',' ','m','t','i','m','e','+','{','a','t','i','m','e','}','f','o','o','/','b','a','r','/','e','x','a','m','p','l','e','.','t','x','t'],
  [],
  ['O','U','T','P','U','T'],
  [' ',' ',' ',' ','T','h','e',' ','c','o','n','t','e','n','t','s',' ','o','f',' ','w','h','a','t',' ','i','s',' ','p','r','i','n','t','e','d',' ','t','o',' ','s','t','a','n','d','a','r','d',' ','o','u','t','p','u','t',' ','c','a','n',' ','b','e',' ','c','o','n','t','r','o','l','l','e','d',' ','u','s','i','n','g'],
  [' ',' ',' ',' ','t','h','e',' ','-','o','/','-','-','o','u','t','p','u','t',' ','a','n','d',' ','t','h','e',' ','-','-','s','e','p',' ','o','p','t','i','o','n','s','.',' ','-','o','/','-','-','o','u','t','p','u','t',' ','i','s',' ','s','u','p','p','o','s','e','d',' ','t','o',' ','b','e',' ','a'],
  [' ',' ',' ',' ','c','o','m','m','a','-','s','e','p','a','r','a','t','e','d',' ','l','i','s','t',' ','o','f',' ','a','t','t','r','i','b','u','t','e',' ','n','a','m','e','s',',',' ','t','h','a','t',' ','w','i','l','l',' ','b','e',' ','p','r','i','n','t','e','d',' ','u','s','i','n','g',' ','t','h','e']]

/-- libff/manpage.template:181-200 -/
def manpageTemplate9 : List Str := [
  [' ',' ',' ',' ','s','e','p','a','r','a','t','o','r',' ','s','t','r','i','n','g',' ','f','r','o','m',' ','t','h','e',' ','-','-','s','e','p',' ','o','p','t','i','o','n','.',' ','-','o','/','-','-','o','u','t','p','u','t',' ','d','e','f','a','u','l','t','s',' ','t','o',' ','\'','p','a','t','h','\'','.',' ','U','s','e'],
  [' ',' ',' ',' ','-','-','o','u','t','p','u','t','=','f','i','l','e',' ','a','s',' ','a',' ','s','h','o','r','t','h','a','n','d',' ','f','o','r',' ','a','l','l',' ','a','t','t','r','i','b','u','t','e','s',' ','f','r','o','m',' ','t','h','e',' ','\'','f','i','l','e','\'',' ','p','l','u','g','i','n','.'],
  [],
  [' ',' ',' ',' ','E','n','t','r','i','e','s',' ','t','h','a','t',' ','a','r','e',' ','m','i','s','s','i','n','g',' ','a',' ','v','a','l','u','e',' ','f','o','r',' ','o','n','e',' ','o','f',' ','t','h','e',' ','a','t','t','r','i','b','u','t','e','s',' ','i','n',' ','t','h','e',' ','l','i','s','t',' ','f','r','o','m'],
  [' ',' ',' ',' ','-','o','/','-','-','o','u','t','p','u','t',' ','w','i','l','l',' ','n','o','t',' ','b','e',' ','p','r','i','n','t','e','d',' ','u','n','l','e','s','s',' ','t','h','e',' ','-','-','a','l','l',' ','o','p','t','i','o','n',' ','i','s',' ','g','i','v','e','n','.'],
  [],
  [' ',' ',' ',' ','T','h','e',' ','-','v','/','-','-','v','e','r','b','o','s','e',' ','o','p','t','i','o','n',' ','p','r','o','d','u','c','e','s',' ','o','u','t','p','u','t',' ','i','n',' ','t','h','e',' ','s','t','y','l','e',' ','o','f',' ','l','s','(','1',')','\'','s',' ','l','o','n','g'],
  [' ',' ',' ',' ','l','i','s','t','i','n','g',' ','f','o','r','m','a','t','.'],
  [],
  [' ',' ',' ',' ','T','h','e',' ','-','-','j','s','o','n',' ','a','n','d',' ','-','-','j','s','o','n','l','/','-','-','n','d','j','s','o','n',' ','o','p','t','i','o','n','s',' ','p','r','i','n','t',' ','e','a','c','h',' ','r','e','c','o','r','d',' ','a','s',' ','a',' ','J','S','O','N',' ','o','b','j','e','c','t'],
  [' ',' ',' ',' ','t','o',' ','s','t','a','n','d','a','r','d',' ','o','u','t','p','u','t','.',' ','T','h','e',' ','a','t','t','r','i','b','u','t','e','s',' ','o','f',' ','t','h','e',' ','J','S','O','N',' ','o','b','j','e','c','t',' ','a','r','e',' ','t','h','e',' ','s','a','m','e',' ','a','s',' ','i','n'],
  [' ',' ',' ',' ','-','o','/','-','-','o','u','t','p','u','t',',',' ','b','u','t',' ','-','-','a','l','l',' ','i','s',' ','i','m','p','l','i','e','d',' ','a','n','d',' ','m','i','s','s','i','n','g',' ','a','t','t','r','i','b','u','t','e','s',' ','h','a','v','e',' ','a',' ','n','u','l','l',' ','v','a','l','u','e','.'],
  [' ',' ',' ',' ','T','h','e',' ','d','i','f','f','e','r','e','n','c','e',' ','b','e','t','w','e','e','n',' ','b','o','t','h',' ','o','p','t','i','o','n','s',' ','i','s',' ','t','h','a','t',' ','-','-','j','s','o','n',' ','p','r','o','d','u','c','e','s',' ','o','n','e',' ','b','i','g',' ','J','S','O','N'],
  [' ',' ',' ',' ','l','i','s','t',' ','o','b','j','e','c','t',' ','c','o','n','t','a','i','n','i','n','g',' ','a','l','l',' ','t','h','e',' ','r','e','c','o','r','d','s',',',' ','w','h','e','r','e','a','s',' ','t','h','e',' ','-','-','j','s','o','n','l','/','-','-','n','d','j','s','o','n',' ','p','r','i','n','t','s'],
  [' ',' ',' ',' ','o','n','e',' ','J','S','O','N',' ','o','b','j','e','c','t',' ','p','e','r',' ','r','e','c','o','r','d',' ','p','e','r',' ','l','i','n','e','.'],
  [],
  [' ',' ',' ',' ','B','y',' ','d','e','f','a','u','l','t',',',' ','p','a','t','h','n','a','m','e','s',' ','a','r','e',' ','p','r','i','n','t','e','d',' ','i','n',' ','c','o','l','o','r',' ','a','c','c','o','r','d','i','n','g',' ','t','o',' ','d','i','r','c','o','l','o','r','s','(','1',')',' ','r','u','l','e','s',','],
  [' ',' ',' ',' ','u','n','l','e','s','s',' ','N','O','_','C','O','L','O','R',' ','i','s',' ','s','e','t',',',' ','-','-','c','o','l','o','r',' ','i','s',' ','s','e','t',' ','t','o',' ','\'','n','e','v','e','r','\'',',',' ','o','r',' ','t','h','e',' ','o','u','t','p','u','t',' ','i','s',' ','n','o','t'],
  [' ',' ',' ',' ','c','o','n','n','e','c','t','e','d',' ','t','o',' ','a',' ','t','e','r','m','i','n','a','l','.',' ','C','o','l','o','r',' ','o','u','t','p','u','t',' ','c','a','n',' ','b','e',' ','f','o','r','c','e','d',' ','w','i','t','h',' ','-','-','c','o','l','o','r','=','a','l','w','a','y','s','.'],
  []]

/-- libff/manpage.template:201-220 -/
def manpageTemplate10 : List Str := [
  [' ',' ',' ',' ','I','n',' ','a','d','d','i','t','i','o','n',',',' ','o','u','t','p','u','t',' ','o','f',' ','a','t','t','r','i','b','u','t','e',' ','v','a','l','u','e','s',' ','c','a','n',' ','b','e',' ','c','o','n','t','r','o','l','l','e','d',' ','u','s','i','n','g',' ','m','o','d','i','f','i','e','r','s',','],
  [' ',' ',' ',' ','s','e','e',' ','s','e','c','t','i','o','n',' ','M','O','D','I','F','I','E','R','S','.'],
  [],
  ['C','O','M','M','A','N','D',' ','E','X','E','C','U','T','I','O','N'],
  [' ',' ',' ',' ','T','h','e',' ','-','x','/','-','-','e','x','e','c',' ','a','n','d',' ','-','X','/','-','-','e','x','e','c','-','b','a','t','c','h',' ','o','p','t','i','o','n','s',' ','a','l','l','o','w',' ','e','x','e','c','u','t','i','n','g',' ','e','x','t','e','r','n','a','l',' ','c','o','m','m','a','n','d','s'],
  [' ',' ',' ',' ','w','i','t','h',' ','s','e','a','r','c','h',' ','r','e','s','u','l','t','s',' ','a','s',' ','t','h','e','i','r',' ','a','r','g','u','m','e','n','t','s','.',' ','-','x','/','-','-','e','x','e','c',' ','s','t','a','r','t','s',' ','o','n','e',' ','p','r','o','c','e','s','s',' ','f','o','r'],
  [' ',' ',' ',' ','e','v','e','r','y',' ','s','e','a','r','c','h',' ','r','e','s','u','l','t',',',' ','w','h','e','r','e','a','s',' ','-','X','/','-','-','e','x','e','c','-','b','a','t','c','h',' ','s','t','a','r','t','s',' ','o','n','e',' ','p','r','o','c','e','s','s',' ','t','h','a','t',' ','g','e','t','s'],
  [' ',' ',' ',' ','a','l','l',' ','r','e','s','u','l','t','s',' ','a','t',' ','o','n','c','e','.',' ','T','h','e',' ','e','x','i','t',' ','s','t','a','t','u','s',' ','o','f',' ','f','f','(','1',')',' ','w','i','l','l',' ','b','e',' ','s','e','t',' ','a','c','c','o','r','d','i','n','g','l','y',' ','i','f'],
  [' ',' ',' ',' ','o','n','e',' ','o','f',' ','t','h','e',' ','c','o','m','m','a','n','d','s',' ','t','e','r','m','i','n','a','t','e','s',' ','w','i','t','h',' ','a','n',' ','e','r','r','o','r',',',' ','s','e','e',' ','E','X','I','T',' ','C','O','D','E','S',' ','b','e','l','o','w','.'],
  [],
  [' ',' ',' ',' ','T','h','e',' ','-','x','/','-','-','e','x','e','c',' ','a','n','d',' ','t','h','e',' ','-','X','/','-','-','e','x','e','c','-','b','a','t','c','h',' ','o','p','t','i','o','n','s',' ','t','e','r','m','i','n','a','t','e',' ','f','f','(','1',')','\'','s',' ','c','o','m','m','a','n','d'],
  [' ',' ',' ',' ','l','i','n','e','.',' ','A','l','l',' ','a','r','g','u','m','e','n','t','s',' ','t','h','a','t',' ','f','o','l','l','o','w',' ','m','a','k','e',' ','u','p',' ','t','h','e',' ','c','o','m','m','a','n','d',' ','t','e','m','p','l','a','t','e',' ','a','n','d',' ','w','i','l','l',' ','b','e'],
  [' ',' ',' ',' ','p','a','s','s','e','d',' ','t','o',' ','t','h','e',' ','s','u','b','p','r','o','c','e','s','s','.'],
  [],
  [' ',' ',' ',' ','T','h','e',' ','f','o','l','l','o','w','i','n','g',' ','p','l','a','c','e','h','o','l','d','e','r','s',' ','a','r','e',' ','s','u','b','s','t','i','t','u','t','e','d',' ','i','n',' ','t','h','e',' ','c','o','m','m','a','n','d',' ','t','e','m','p','l','a','t','e',':'],
  [],
  [' ',' ',' ',' ','{','}',' ',' ',' ',' ','f','u','l','l',' ','p','a','t','h',',',' ','a','l','i','a','s',' ','f','o','r',' ','{','f','i','l','e','.','p','a','t','h','}'],
  [' ',' ',' ',' ','{','/','}',' ',' ',' ','b','a','s','e','n','a','m','e',',',' ','a','l','i','a','s',' ','f','o','r',' ','{','f','i','l','e','.','n','a','m','e','}'],
  [' ',' ',' ',' ','{','/','/','}',' ',' ','p','a','r','e','n','t',' ','d','i','r','e','c','t','o','r','y',',',' ','a','l','i','a','s',' ','f','o','r',' ','{','f','i','l','e','.','d','i','r','}'],
  [' ',' ',' ',' ','{','.','}',' ',' ',' ','p','a','t','h',' ','w','i','t','h','o','u','t',' ','f','i','l','e',' ','e','x','t','e','n','s','i','o','n',',',' ','a','l','i','a','s',' ','f','o','r',' ','{','f','i','l','e','.','p','a','t','h','x','}']]

/-- libff/manpage.template:221-240 -/
def manpageTemplate11 : List Str := [
  [' ',' ',' ',' ','{','/','.','}',' ',' ','b','a','s','e','n','a','m','e',' ','w','i','t','h','o','u','t',' ','f','i','l','e',' ','e','x','t','e','n','s','i','o','n',',',' ','a','l','i','a','s',' ','f','o','r',' ','{','f','i','l','e','.','n','a','m','e','x','}'],
  [' ',' ',' ',' ','{','.','.','}',' ',' ','f','i','l','e',' ','e','x','t','e','n','s','i','o','n',',',' ','a','l','i','a','s',' ','f','o','r',' ','{','f','i','l','e','.','e','x','t','}'],
  [' ',' ',' ',' ','{','a','t','t','r','i','b','u','t','e','}',' ',' ','r','e','p','l','a','c','e','d',' ','w','i','t','h',' ','t','h','e',' ','v','a','l','u','e',' ','o','f',' ','a','t','t','r','i','b','u','t','e'],
  [],
  [' ',' ',' ',' ','U','s','e',' ','\'','{','{','\'',' ','a','n','d',' ','\'','}','}','\'',' ','i','n',' ','t','h','e',' ','c','o','m','m','a','n','d',' ','t','e','m','p','l','a','t','e',' ','i','f',' ','y','o','u',' ','n','e','e','d',' ','l','i','t','e','r','a','l',' ','\'','{','\'',' ','a','n','d',' ','\'','}','\''],
  [' ',' ',' ',' ','i','n',' ','t','h','e',' ','c','o','m','m','a','n','d','.'],
  [],
  [' ',' ',' ',' ','I','f',' ','n','o',' ','p','l','a','c','e','h','o','l','d','e','r',' ','i','s',' ','f','o','u','n','d',' ','i','n',' ','t','h','e',' ','c','o','m','m','a','n','d',' ','t','e','m','p','l','a','t','e',' ','t','h','e',' ','f','u','l','l',' ','p','a','t','h',' ','i','s',' ','u','s','e','d',' ','a','s'],
  [' ',' ',' ',' ','t','h','e',' ','d','e','f','a','u','l','t',' ','a','r','g','u','m','e','n','t','.',' ','T','h','e',' ','-','o','/','-','-','o','u','t','p','u','t',' ','o','p','t','i','o','n',' ','h','a','s',' ','n','o',' ','e','f','f','e','c','t',' ','o','n',' ','-','x','/','-','-','e','x','e','c',' ','a','n','d'],
  [' ',' ',' ',' ','-','X','/','-','-','e','x','e','c','-','b','a','t','c','h','.'],
  [],
  ['E','X','C','L','U','S','I','O','N'],
  [' ',' ',' ',' ','T','h','e',' ','-','e','/','-','-','e','x','c','l','u','d','e',' ','o','p','t','i','o','n',' ','t','a','k','e','s',' ','a',' ','s','i','n','g','l','e',' ','t','e','s','t',' ','a','s',' ','a','r','g','u','m','e','n','t','.',' ','A','l','l',' ','e','n','t','r','i','e','s',' ','t','h','a','t'],
  [' ',' ',' ',' ','m','a','t','c','h',' ','t','h','i','s',' ','t','e','s','t',' ','w','i','l','l',' ','b','e',' ','e','x','c','l','u','d','e','d',' ','f','r','o','m',' ','t','h','e',' ','l','i','s','t',' ','o','f',' ','r','e','s','u','l','t','s',' ','e','v','e','n',' ','b','e','f','o','r','e',' ','t','h','e'],
  [' ',' ',' ',' ','e','x','p','r','e','s','s','i','o','n',' ','i','s',' ','e','v','a','l','u','a','t','e','d','.',' ','A',' ','m','a','t','c','h','i','n','g',' ','d','i','r','e','c','t','o','r','y',' ','w','i','l','l',' ','n','o','t',' ','b','e',' ','d','e','s','c','e','n','d','e','d',' ','i','n','t','o',','],
  [' ',' ',' ',' ','s','o',' ','t','h','e',' ','e','n','t','r','i','e','s',' ','i','t',' ','c','o','n','t','a','i','n','s',' ','w','i','l','l',' ','n','o','t',' ','b','e',' ','p','r','o','d','u','c','e','d','.',' ','-','e','/','-','-','e','x','c','l','u','d','e',' ','m','a','y',' ','b','e'],
  [' ',' ',' ',' ','s','p','e','c','i','f','i','e','d',' ','m','u','l','t','i','p','l','e',' ','t','i','m','e','s','.'],
  [],
  [' ',' ',' ',' ','I','f',' ','-','H','/','-','-','h','i','d','e',' ','i','s',' ','g','i','v','e','n',',',' ','a','l','l',' ','h','i','d','d','e','n',' ','f','i','l','e','s',' ','w','i','l','l',' ','b','e',' ','e','x','c','l','u','d','e','d',' ','u','s','i','n','g',' ','t','h','i','s',' ','m','e','t','h','o','d',','],
  [' ',' ',' ',' ','i','.','e','.',' ','t','h','e',' ','o','p','t','i','o','n',' ','t','r','a','n','s','l','a','t','e','s',' ','t','o',' ','\'','-','-','e','x','c','l','u','d','e',' ','h','i','d','e','=','y','e','s','\'','.',' ','T','h','e',' ','s','a','m','e',' ','a','p','p','l','i','e','s',' ','t','o']]

/-- libff/manpage.template:241-260 -/
def manpageTemplate12 : List Str := [
  [' ',' ',' ',' ','-','I','/','-','-','i','g','n','o','r','e',' ','w','h','i','c','h',' ','t','r','a','n','s','l','a','t','e','s',' ','t','o',' ','\'','-','-','e','x','c','l','u','d','e',' ','i','g','n','o','r','e','d','=','y','e','s','\'','.'],
  [],
  ['I','G','N','O','R','E',' ','F','I','L','E','S'],
  [' ',' ',' ',' ','W','i','t','h',' ','-','I','/','-','-','i','g','n','o','r','e',',',' ','f','f','(','1',')',' ','r','e','a','d','s',' ','.','f','d','i','g','n','o','r','e',',',' ','.','f','f','i','g','n','o','r','e',',',' ','.','g','i','t','i','g','n','o','r','e',',',' ','a','n','d',' ','.','i','g','n','o','r','e'],
  [' ',' ',' ',' ','f','i','l','e','s',' ','a','n','d',' ','e','x','c','l','u','d','e','s',' ','a','l','l',' ','e','n','t','r','i','e','s',' ','t','h','a','t',' ','m','a','t','c','h',' ','t','h','e',' ','s','e','t',' ','o','f',' ','p','a','t','t','e','r','n','s',' ','i','n',' ','o','n','e',' ','o','f'],
  [' ',' ',' ',' ','t','h','e','s','e',' ','f','i','l','e','s','.',' ','T','h','e',' ','l','i','s','t',' ','o','f',' ','i','g','n','o','r','e',' ','f','i','l','e','s',' ','c','a','n',' ','b','e',' ','a','l','t','e','r','e','d',' ','w','i','t','h'],
  [' ',' ',' ',' ','-','-','i','g','n','o','r','e','-','f','i','l','e','s','.',' ','T','h','e',' ','s','y','n','t','a','x',' ','o','f',' ','t','h','e','s','e',' ','f','i','l','e','s',' ','i','s',' ','d','e','s','c','r','i','b','e','d',' ','i','n',' ','g','i','t','i','g','n','o','r','e','(','5',')','.'],
  [],
  ['S','O','R','T','I','N','G'],
  [' ',' ',' ',' ','S','o','r','t','i','n','g',' ','i','s',' ','c','o','n','t','r','o','l','l','e','d',' ','w','i','t','h',' ','t','h','e',' ','-','S','/','-','-','s','o','r','t',' ','o','p','t','i','o','n','.',' ','I','t',' ','i','s',' ','o','f','f',' ','b','y',' ','d','e','f','a','u','l','t',',',' ','t','h','i','s'],
  [' ',' ',' ',' ','w','a','y',' ','e','n','t','r','i','e','s',' ','a','r','e',' ','p','r','o','c','e','s','s','e','d',' ','a','n','d',' ','p','r','i','n','t','e','d',' ','a','s',' ','s','o','o','n',' ','a','s',' ','t','h','e','y',' ','a','r','e',' ','f','o','u','n','d',' ','i','n','s','t','e','a','d',' ','o','f'],
  [' ',' ',' ',' ','f','i','r','s','t',' ','b','e','i','n','g',' ','c','o','l','l','e','c','t','e','d',' ','a','n','d',' ','t','h','e','n',' ','s','o','r','t','e','d','.',' ','T','h','i','s',' ','m','a','k','e','s',' ','b','e','t','t','e','r',' ','u','s','e',' ','o','f',' ','f','f','(','1',')','\'','s'],
  [' ',' ',' ',' ','p','a','r','a','l','l','e','l',' ','p','r','o','c','e','s','s','i','n','g',' ','c','a','p','a','b','i','l','i','t','i','e','s',' ','a','n','d',' ','i','s',' ','m','u','c','h',' ','f','a','s','t','e','r','.'],
  [],
  [' ',' ',' ',' ','-','S','/','-','-','s','o','r','t',' ','t','a','k','e','s',' ','a','n',' ','o','p','t','i','o','n','a','l',' ','<','a','t','t','r','i','b','u','t','e','-','l','i','s','t','>',' ','a','r','g','u','m','e','n','t','.',' ','W','i','t','h','o','u','t',' ','i','t',',',' ','s','o','r','t','i','n','g',' ','i','s'],
  [' ',' ',' ',' ','d','o','n','e',' ','a','l','p','h','a','b','e','t','i','c','a','l','l','y',' ','o','n',' ','t','h','e',' ','e','n','t','r','y','\'','s',' ','p','a','t','h','.',' ','<','a','t','t','r','i','b','u','t','e','-','l','i','s','t','>',' ','i','s',' ','a'],
  [' ',' ',' ',' ','c','o','m','m','a','-','s','e','p','a','r','a','t','e','d',' ','l','i','s','t',' ','o','f',' ','a','t','t','r','i','b','u','t','e',' ','n','a','m','e','s',' ','t','h','a','t',' ','w','i','l','l',' ','b','e',' ','u','s','e','d',' ','a','s',' ','s','o','r','t',' ','c','r','i','t','e','r','i','a','.'],
  [' ',' ',' ',' ','T','h','e',' ','s','o','r','t',' ','o','r','d','e','r',' ','c','a','n',' ','b','e',' ','r','e','v','e','r','s','e','d',' ','w','i','t','h',' ','-','R','/','-','-','r','e','v','e','r','s','e','.',' ','I','n',' ','a','d','d','i','t','i','o','n',',',' ','s','o','r','t','i','n','g',' ','o','f'],
  [' ',' ',' ',' ','a','t','t','r','i','b','u','t','e',' ','v','a','l','u','e','s',' ','c','a','n',' ','b','e',' ','c','o','n','t','r','o','l','l','e','d',' ','u','s','i','n','g',' ','m','o','d','i','f','i','e','r','s',',',' ','s','e','e',' ','s','e','c','t','i','o','n',' ','M','O','D','I','F','I','E','R','S','.'],
  []]

/-- libff/manpage.template:261-280 -/
def manpageTemplate13 : List Str := [
  ['C','O','U','N','T','I','N','G'],
  [' ',' ',' ',' ','I','f',' ','t','h','e',' ','-','-','c','o','u','n','t',' ','o','p','t','i','o','n',' ','i','s',' ','s','p','e','c','i','f','i','e','d',',',' ','i','n','s','t','e','a','d',' ','o','f',' ','p','r','i','n','t','i','n','g',' ','t','h','e',' ','r','e','s','u','l','t','s',' ','o','f',' ','t','h','e'],
  [' ',' ',' ',' ','s','e','a','r','c','h',',',' ','c','o','u','n','t',' ','t','h','e',' ','e','n','t','r','i','e','s',' ','a','n','d',' ','t','h','e',' ','a','t','t','r','i','b','u','t','e','s',' ','f','r','o','m',' ','<','a','t','t','r','i','b','u','t','e','-','l','i','s','t','>',' ','a','n','d',' ','p','r','i','n','t'],
  [' ',' ',' ',' ','t','h','e','s','e',' ','c','o','u','n','t','s',' ','t','o',' ','s','t','a','n','d','a','r','d',' ','o','u','t','p','u','t','.',' ','I','f',' ','-','-','c','o','u','n','t',' ','i','s',' ','g','i','v','e','n',' ','w','i','t','h','o','u','t',' ','a',' ','l','i','s','t',' ','o','f'],
  [' ',' ',' ',' ','a','t','t','r','i','b','u','t','e','s',' ','t','h','e',' ','t','o','t','a','l',' ','s','i','z','e',' ','o','f',' ','a','l','l',' ','f','i','l','e','s',' ','a','n','d',' ','s','t','a','t','i','s','t','i','c','s',' ','a','b','o','u','t',' ','t','h','e',' ','d','i','f','f','e','r','e','n','t'],
  [' ',' ',' ',' ','f','i','l','e',' ','t','y','p','e','s',' ','i','s',' ','d','i','s','p','l','a','y','e','d','.',' ','I','f',' ','<','a','t','t','r','i','b','u','t','e','-','l','i','s','t','>',' ','i','s',' ','p','r','e','s','e','n','t',' ','t','h','e','s','e',' ','a','t','t','r','i','b','u','t','e','s'],
  [' ',' ',' ',' ','a','r','e',' ','u','s','e','d',' ','f','o','r',' ','c','o','u','n','t','i','n','g','.',' ','T','h','e','r','e',' ','i','s',' ','a','l','w','a','y','s',' ','a',' ','\'','_','t','o','t','a','l','\'',' ','f','i','e','l','d',' ','t','h','a','t',' ','c','o','n','t','a','i','n','s',' ','t','h','e'],
  [' ',' ',' ',' ','n','u','m','b','e','r',' ','o','f',' ','a','l','l',' ','e','n','t','r','i','e','s',' ','t','h','a','t',' ','m','a','t','c','h','e','d','.'],
  [],
  [' ',' ',' ',' ','T','h','e','r','e',' ','a','r','e',' ','t','w','o',' ','p','o','s','s','i','b','l','e',' ','w','a','y','s',' ','i','n',' ','w','h','i','c','h',' ','a','t','t','r','i','b','u','t','e','s',' ','a','r','e',' ','c','o','u','n','t','e','d',' ','t','h','a','t',' ','d','e','p','e','n','d',' ','o','n'],
  [' ',' ',' ',' ','t','h','e','i','r',' ','t','y','p','e','.',' ','T','y','p','e','s',' ','l','i','k','e',' ','f','i','l','e',' ','s','i','z','e',' ','o','r',' ','d','u','r','a','t','i','o','n',' ','t','h','a','t',' ','v','a','r','y',' ','w','i','d','e','l','y',' ','a','r','e',' ','s','u','m','m','e','d',' ','u','p'],
  [' ',' ',' ',' ','t','o',' ','a',' ','t','o','t','a','l','.',' ','F','o','r',' ','a','l','l',' ','o','t','h','e','r',' ','t','y','p','e','s',' ','t','h','e',' ','n','u','m','b','e','r',' ','o','f',' ','o','c','c','u','r','r','e','n','c','e','s',' ','o','f',' ','e','a','c','h'],
  [' ',' ',' ',' ','i','n','d','i','v','i','d','u','a','l',' ','v','a','l','u','e',' ','i','s',' ','c','o','u','n','t','e','d',',',' ','t','h','i','s',' ','w','a','y',' ','y','o','u',' ','c','a','n',' ','g','e','t',' ','a','n',' ','o','v','e','r','v','i','e','w',' ','o','n',' ','t','h','e'],
  [' ',' ',' ',' ','v','a','r','i','e','t','y',' ','o','f',' ','v','a','l','u','e','s',' ','o','f',' ','a','n',' ','a','t','t','r','i','b','u','t','e','.',' ','F','o','r',' ','s','o','m','e',' ','a','t','t','r','i','b','u','t','e','s',' ','-','-','c','o','u','n','t',' ','m','a','k','e','s',' ','n','o','t'],
  [' ',' ',' ',' ','m','u','c','h',' ','s','e','n','s','e',',',' ','e','.','g','.',' ','p','a','t','h',' ','o','r',' ','t','i','m','e','.',' ','I','t',' ','i','s',' ','b','e','s','t',' ','s','u','i','t','e','d',' ','f','o','r',' ','a','t','t','r','i','b','u','t','e','s',' ','l','i','k','e',' ','t','y','p','e',','],
  [' ',' ',' ',' ','p','e','r','m',',',' ','h','i','d','d','e','n',',',' ','d','e','p','t','h',',',' ','u','i','d',',',' ','g','i','d',',',' ','e','t','c','.'],
  [],
  [' ',' ',' ',' ','T','h','e',' ','w','a','y',' ','a',' ','t','y','p','e',' ','i','s',' ','c','o','u','n','t','e','d',' ','c','a','n',' ','b','e',' ','c','h','e','c','k','e','d',' ','w','i','t','h',' ','`','f','f',' ','-','-','h','e','l','p','-','t','y','p','e','s','`','.'],
  [],
  ['M','O','D','I','F','I','E','R','S']]

/-- libff/manpage.template:281-300 -/
def manpageTemplate14 : List Str := [
  [' ',' ',' ',' ','H','o','w',' ','i','n','d','i','v','i','d','u','a','l',' ','a','t','t','r','i','b','u','t','e',' ','v','a','l','u','e','s',' ','a','r','e',' ','o','u','t','p','u','t',' ','a','n','d',' ','s','o','r','t','e','d',' ','c','a','n',' ','b','e',' ','c','o','n','t','r','o','l','l','e','d'],
  [' ',' ',' ',' ','u','s','i','n','g',' ','m','o','d','i','f','i','e','r','s','.',' ','T','h','e',' ','s','y','n','t','a','x',' ','i','s',':',' ','<','a','t','t','r','i','b','u','t','e','-','n','a','m','e','>',':','<','m','o','d','i','f','i','e','r','>','.',' ','P','o','s','s','i','b','l','e'],
  [' ',' ',' ',' ','v','a','l','u','e','s',' ','f','o','r',' ','<','m','o','d','i','f','i','e','r','>',' ','a','r','e',' ','l','i','s','t','e','d',' ','b','e','l','o','w','.'],
  [],
  [' ',' ',' ',' ','O','u','t','p','u','t',' ','m','o','d','i','f','i','e','r','s',':'],
  [' ',' ',' ',' ','h',' ',' ','h','u','m','a','n','-','r','e','a','d','a','b','l','e',' ','f','o','r','m','a','t','t','i','n','g',' ','f','o','r',' ','s','i','z','e',' ','t','y','p','e','s'],
  [' ',' ',' ',' ','x',' ',' ','h','e','x','a','d','e','c','i','m','a','l',' ','r','e','p','r','e','s','e','n','t','a','t','i','o','n',' ','f','o','r',' ','n','u','m','b','e','r',' ','t','y','p','e','s'],
  [' ',' ',' ',' ','o',' ',' ','o','c','t','a','l',' ','r','e','p','r','e','s','e','n','t','a','t','i','o','n',' ','f','o','r',' ','n','u','m','b','e','r',' ','t','y','p','e','s',',',' ','e','.','g','.',' ','\'','f','i','l','e','.','m','o','d','e','\'',' ','a','n','d',' ','\'','f','i','l','e','.','p','e','r','m','\'','.'],
  [' ',' ',' ',' ','n',' ',' ','i','g','n','o','r','e',' ','n','u','l','l',' ','v','a','l','u','e','s',' ','(','o','t','h','e','r','w','i','s','e',' ','t','h','e',' ','w','h','o','l','e',' ','r','e','c','o','r','d',' ','w','o','u','l','d',' ','n','o','t',' ','b','e',' ','p','r','i','n','t','e','d',')'],
  [],
  [' ',' ',' ',' ','S','o','r','t',' ','m','o','d','i','f','i','e','r','s',':'],
  [' ',' ',' ',' ','v',' ',' ','n','a','t','u','r','a','l',' ','s','o','r','t',' ','o','r','d','e','r',' ','i','n','s','t','e','a','d',' ','o','f',' ','a','l','p','h','a','b','e','t','i','c','a','l',' ','o','r','d','e','r',',',' ','e','.','g','.',' ','f','o','r',' ','v','e','r','s','i','o','n'],
  [' ',' ',' ',' ',' ',' ',' ','n','u','m','b','e','r','s',' ','w','i','t','h','i','n',' ','f','i','l','e','n','a','m','e','s'],
  [],
  [' ',' ',' ',' ','E','x','a','m','p','l','e',':'],
  [],
  [' ',' ',' ',' ','$',' ','f','f',' ','-','-','o','u','t','p','u','t',' ','s','i','z','e',':','h',',','p','e','r','m',':','o',',','p','a','t','h'],
  [],
  [' ',' ',' ',' ','$',' ','f','f',' ','-','-','s','o','r','t',' ','n','a','m','e',':','v'],
  []]

/-- libff/manpage.template:301-320 -/
def manpageTemplate15 : List Str := [
  ['C','A','C','H','I','N','G'],
  [' ',' ',' ',' ','S','o','m','e',' ','p','l','u','g','i','n','s',' ','u','s','e',' ','a',' ','c','a','c','h','e',' ','t','o',' ','s','t','o','r','e',' ','i','n','f','o','r','m','a','t','i','o','n',' ','b','e','t','w','e','e','n',' ','c','o','n','s','e','c','u','t','i','v','e',' ','r','u','n','s',' ','t','h','a','t'],
  [' ',' ',' ',' ','i','s',' ','t','i','m','e','-','c','o','n','s','u','m','i','n','g',' ','t','o',' ','p','r','e','p','a','r','e','.',' ','T','h','i','s',' ','l','e','a','d','s',' ','t','o',' ','a',' ','s','l','o','w',' ','f','i','r','s','t',' ','r','u','n',' ','b','u','t'],
  [' ',' ',' ',' ','s','i','g','n','i','f','i','c','a','n','t','l','y',' ','f','a','s','t','e','r',' ','s','u','b','s','e','q','u','e','n','t',' ','r','u','n','s','.',' ','T','h','e',' ','l','o','c','a','t','i','o','n',' ','o','f',' ','t','h','e',' ','c','a','c','h','e',' ','i','s'],
  [' ',' ',' ',' ','\'','~','/','.','c','a','c','h','e','/','f','f','.','d','b','\'',' ','b','y',' ','d','e','f','a','u','l','t',' ','a','n','d',' ','c','a','n',' ','b','e',' ','c','h','a','n','g','e','d',' ','w','i','t','h',' ','t','h','e',' ','-','-','c','a','c','h','e',' ','o','p','t','i','o','n','.',' ','Y','o','u'],
  [' ',' ',' ',' ','c','a','n',' ','t','u','r','n',' ','o','f','f',' ','c','a','c','h','i','n','g',' ','w','i','t','h',' ','t','h','e',' ','-','-','n','o','-','c','a','c','h','e',' ','o','p','t','i','o','n','.'],
  [],
  ['O','P','T','I','M','I','Z','A','T','I','O','N','S'],
  [' ',' ',' ',' ','f','f','(','1',')',' ','w','i','l','l',' ','a','u','t','o','m','a','t','i','c','a','l','l','y',' ','o','p','t','i','m','i','z','e',' ','t','h','e',' ','e','x','p','r','e','s','s','i','o','n',' ','b','y',' ','r','e','o','r','d','e','r','i','n','g',' ','t','e','s','t','s',' ','i','.','e','.'],
  [' ',' ',' ',' ','g','r','o','u','p','i','n','g',' ','f','a','s','t','e','r',' ','t','e','s','t','s',' ','b','e','f','o','r','e',' ','s','l','o','w','e','r',' ','o','n','e','s',',',' ','w','h','i','c','h',' ','w','i','l','l',' ','l','e','a','d',' ','t','o',' ','a',' ','c','o','n','s','i','d','e','r','a','b','l','e'],
  [' ',' ',' ',' ','s','p','e','e','d','u','p',' ','i','n',' ','m','a','n','y',' ','c','a','s','e','s','.',' ','T','h','a','t',' ','i','s',' ','b','e','c','a','u','s','e',' ','t','h','e',' ','s','e','q','u','e','n','c','e',' ','o','f',' ','t','e','s','t','s',' ','i','s',' ','t','e','r','m','i','n','a','t','e','d'],
  [' ',' ',' ',' ','a','s',' ','s','o','o','n',' ','a','s',' ','i','t',' ','t','u','r','n','s',' ','o','u','t',' ','t','h','a','t',' ','i','t',' ','w','i','l','l',' ','n','o','t',' ','e','v','a','l','u','a','t','e',' ','t','o',' ','t','r','u','e',',',' ','a','n','d',' ','s','o',' ','t','h','e',' ','s','l','o','w'],
  [' ',' ',' ',' ','t','e','s','t','s',' ','a','t',' ','t','h','e',' ','e','n','d',' ','a','r','e',' ','m','o','r','e',' ','l','i','k','e','l','y',' ','t','o',' ','b','e',' ','s','k','i','p','p','e','d','.',' '],
  [],
  ['P','L','U','G','I','N','S'],
  [' ',' ',' ',' ','I','t',' ','i','s',' ','p','o','s','s','i','b','l','e',' ','t','o',' ','w','r','i','t','e',' ','y','o','u','r',' ','o','w','n',' ','p','l','u','g','i','n','s',' ','a','n','d',' ','e','x','t','e','n','d',' ','f','f','(','1',')','\'','s',' ','f','u','n','c','t','i','o','n','a','l','i','t','y','.',' ','A'],
  [' ',' ',' ',' ','p','l','u','g','i','n',' ','i','s',' ','a','n',' ','o','r','d','i','n','a','r','y',' ','p','y','t','h','o','n',' ','m','o','d','u','l','e','.',' ','T','h','e','r','e',' ','a','r','e',' ','m','a','n','y',' ','e','x','a','m','p','l','e','s',' ','i','n','c','l','u','d','e','d',' ','i','n',' ','t','h','e'],
  [' ',' ',' ',' ','s','o','u','r','c','e',' ','d','i','s','t','r','i','b','u','t','i','o','n',' ','a','n','d',' ','a',' ','f','i','l','e',' ','\'','p','l','u','g','i','n','_','t','e','m','p','l','a','t','e','.','p','y','\'',' ','t','o',' ','s','t','a','r','t',' ','f','r','o','m','.',' ','U','s','e','r'],
  [' ',' ',' ',' ','p','l','u','g','i','n','s',' ','a','r','e',' ','i','m','p','o','r','t','e','d',' ','f','r','o','m',' ','t','h','e',' ','\'','~','/','.','f','f','\'',' ','d','i','r','e','c','t','o','r','y','.'],
  []]

/-- libff/manpage.template:321-340 -/
def manpageTemplate16 : List Str := [
  ['L','I','M','I','T','A','T','I','O','N','S'],
  [' ',' ',' ',' ','T','h','e',' ','w','a','y',' ','f','f','(','1',')',' ','w','o','r','k','s',' ','m','e','s','s','e','s',' ','w','i','t','h',' ','f','i','l','e',' ','a','c','c','e','s','s',' ','t','i','m','e','s','.',' ','M','o','s','t',' ','p','l','u','g','i','n','s',' ','(','e','x','c','e','p','t',' ','f','o','r'],
  [' ',' ',' ',' ','t','h','e',' ','\'','f','i','l','e','\'',' ','p','l','u','g','i','n',')',' ','m','u','s','t',' ','o','p','e','n',' ','a','n','d',' ','r','e','a','d',' ','f','i','l','e','s',' ','t','o',' ','e','x','t','r','a','c','t',' ','t','h','e',' ','i','n','f','o','r','m','a','t','i','o','n',' ','t','h','e','y'],
  [' ',' ',' ',' ','n','e','e','d','.',' ','S','o',',',' ','d','e','p','e','n','d','i','n','g',' ','o','n',' ','w','h','i','c','h',' ','a','t','t','r','i','b','u','t','e','s',' ','y','o','u',' ','u','s','e',',',' ','m','a','n','y',' ','f','i','l','e','s',' ','w','i','l','l',' ','g','e','t',' ','t','h','e','i','r'],
  [' ',' ',' ',' ','a','c','c','e','s','s',' ','t','i','m','e','s',' ','u','p','d','a','t','e','d',' ','j','u','s','t',' ','b','y',' ','s','e','a','r','c','h','i','n','g',' ','t','h','r','o','u','g','h',' ','t','h','e','m',',',' ','a','n','d',' ','t','h','e','r','e',' ','i','s',' ','n','o',' ','w','a','y',' ','t','o'],
  [' ',' ',' ',' ','p','r','e','v','e','n','t',' ','t','h','a','t','.'],
  [],
  ['E','X','A','M','P','L','E','S'],
  [' ',' ',' ',' ','F','i','n','d',' ','o','n','l','y',' ','r','e','g','u','l','a','r',' ','f','i','l','e','s',' ','i','n',' ','t','h','e',' ','c','u','r','r','e','n','t',' ','d','i','r','e','c','t','o','r','y',' ','a','n','d',' ','a','l','l',' ','i','t','s',' ','s','u','b','d','i','r','e','c','t','o','r','i','e','s',':'],
  [],
  [' ',' ',' ',' ','$',' ','f','f',' ','t','y','p','e','=','f'],
  [],
  [' ',' ',' ',' ','F','i','n','d',' ','o','n','l','y',' ','h','i','d','d','e','n',' ','f','i','l','e','s',' ','i','n',' ','d','i','r','e','c','t','o','r','y',' ','/','h','o','m','e','/','u','s','e','r',':'],
  [],
  [' ',' ',' ',' ','$',' ','f','f',' ','h','i','d','d','e','n','=','y','e','s',' ','/','h','o','m','e','/','u','s','e','r'],
  [],
  [' ',' ',' ',' ','F','i','n','d',' ','f','i','l','e','s',' ','m','a','t','c','h','i','n','g',' ','t','h','e',' ','g','l','o','b',' ','p','a','t','t','e','r','n',':'],
  [],
  [' ',' ',' ',' ','$',' ','f','f',' ','\'','n','a','m','e','%','*','.','t','x','t','\''],
  []]

/-- libff/manpage.template:341-360 -/
def manpageTemplate17 : List Str := [
  [' ',' ',' ',' ','F','i','n','d',' ','f','i','l','e','s',' ','e','x','e','c','u','t','a','b','l','e',' ','b','y',' ','t','h','e',' ','u','s','e','r',':'],
  [],
  [' ',' ',' ',' ','$',' ','f','f',' ','t','y','p','e','=','f',' ','p','e','r','m',':','7','0','0'],
  [],
  [' ',' ',' ',' ','$',' ','f','f',' ','t','y','p','e','=','f',' ','p','e','r','m',':','u','+','x'],
  [],
  [' ',' ',' ',' ','$',' ','f','f',' ','e','x','e','c','=','y','e','s'],
  [],
  ['G','E','T',' ','H','E','L','P'],
  [],
  [' ',' ',' ',' ','V','i','e','w',' ','a',' ','l','i','s','t',' ','o','f',' ','a','v','a','i','l','a','b','l','e',' ','p','l','u','g','i','n','s',':'],
  [],
  [' ',' ',' ',' ','$',' ','f','f',' ','-','-','h','e','l','p','-','p','l','u','g','i','n','s'],
  [],
  [' ',' ',' ',' ','G','e','t',' ','h','e','l','p',' ','o','n',' ','a',' ','s','p','e','c','i','f','i','c',' ','p','l','u','g','i','n',',',' ','i','n','c','l','u','d','i','n','g',' ','t','h','e',' ','a','t','t','r','i','b','u','t','e','s',' ','i','t',' ','p','r','o','v','i','d','e','s',':'],
  [],
  [' ',' ',' ',' ','$',' ','f','f',' ','-','-','h','e','l','p',' ','<','p','l','u','g','i','n','>'],
  [],
  [' ',' ',' ',' ','V','i','e','w',' ','a',' ','l','i','s','t',' ','o','f',' ','a','l','l',' ','a','v','a','i','l','a','b','l','e',' ','a','t','t','r','i','b','u','t','e','s',':'],
  []]

/-- libff/manpage.template:361-380 -/
def manpageTemplate18 : List Str := [
  [' ',' ',' ',' ','$',' ','f','f',' ','-','-','h','e','l','p','-','a','t','t','r','i','b','u','t','e','s'],
  [],
  [' ',' ',' ',' ','V','i','e','w',' ','a',' ','l','i','s','t',' ','o','f',' ','a','l','l',' ','a','v','a','i','l','a','b','l','e',' ','t','y','p','e','s',' ','a','n','d',' ','t','h','e','i','r',' ','s','u','p','p','o','r','t','e','d',' ','o','p','e','r','a','t','o','r','s',':'],
  [],
  [' ',' ',' ',' ','$',' ','f','f',' ','-','-','h','e','l','p','-','t','y','p','e','s'],
  [],
  ['E','X','I','T',' ','C','O','D','E','S'],
  [' ',' ',' ',' ',':',':','e','x','i','t','_','c','o','d','e','s'],
  [],
  ['E','N','V','I','R','O','N','M','E','N','T'],
  [' ',' ',' ',' ','F','F','_','O','P','T','I','O','N','S',' ',' ','D','e','f','a','u','l','t',' ','o','p','t','i','o','n','s',' ','t','o',' ','u','s','e',' ','f','o','r',' ','e','v','e','r','y',' ','i','n','v','o','c','a','t','i','o','n',' ','o','f',' ','f','f','(','1',')','.'],
  [' ',' ',' ',' ','F','F','_','P','L','U','G','I','N','_','D','I','R','S',' ',' ','A',' ','c','o','l','o','n','-','s','e','p','a','r','a','t','e','d',' ','l','i','s','t',' ','o','f',' ','a','d','d','i','t','i','o','n','a','l',' ','d','i','r','e','c','t','o','r','i','e','s',' ','f','r','o','m',' ','w','h','i','c','h',' ','t','o',' ','l','o','a','d',' ','p','l','u','g','i','n','s','.'],
  [' ',' ',' ',' ','L','S','_','C','O','L','O','R','S',' ',' ','A',' ','l','i','s','t',' ','o','f',' ','d','i','r','c','o','l','o','r','s',' ','r','u','l','e','s',',',' ','s','e','e',' ','d','i','r','c','o','l','o','r','s','(','1',')',' ','a','n','d',' ','d','i','r','_','c','o','l','o','r','s','(','5',')','.'],
  [' ',' ',' ',' ','N','O','_','C','O','L','O','R',' ',' ','D','o',' ','n','o','t',' ','p','r','o','d','u','c','e',' ','c','o','l','o','r','f','u','l',' ','t','e','r','m','i','n','a','l',' ','o','u','t','p','u','t',' ','r','e','g','a','r','d','l','e','s','s',' ','o','f',' ','f','f','(','1',')','\'','s',' ','o','p','t','i','o','n','s','.'],
  [],
  ['S','E','E',' ','A','L','S','O'],
  [' ',' ',' ',' ','f','f','(','7',')',',',' ','f','i','n','d','(','1',')',',',' ','f','d','(','1',')'],
  [],
  ['A','U','T','H','O','R'],
  [' ',' ',' ',' ','L','a','r','s',' ','G','u','s','t','ä','b','e','l',' ','<','l','a','r','s','@','g','u','s','t','a','e','b','e','l','.','d','e','>']]

/-- libff/manpage.template:381-382 -/
def manpageTemplate19 : List Str := [
  [],
  [' ',' ',' ',' ','h','t','t','p','s',':','/','/','g','i','t','h','u','b','.','c','o','m','/','g','u','s','t','a','e','b','e','l','/','f','f','/']]

/-- libff/manpage.template:1-382 -/
def manpageTemplate : List Str :=
  manpageTemplate0 ++
  manpageTemplate1 ++
  manpageTemplate2 ++
  manpageTemplate3 ++
  manpageTemplate4 ++
  manpageTemplate5 ++
  manpageTemplate6 ++
  manpageTemplate7 ++
  manpageTemplate8 ++
  manpageTemplate9 ++
  manpageTemplate10 ++
  manpageTemplate11 ++
  manpageTemplate12 ++
  manpageTemplate13 ++
  manpageTemplate14 ++
  manpageTemplate15 ++
  manpageTemplate16 ++
  manpageTemplate17 ++
  manpageTemplate18 ++
  manpageTemplate19

end FF
