import Verif.Model.Re
/-! Model of the test strings of /repo/libff/parser.py. -/
namespace FF

/-- `(?:\w+\.)?\w+?`, the attribute part of parser.py:94 and parser.py:96. -/
def attrRe (cc : CharClass) : Re := .seq (.opt (.seq (.plus true cc.word) (.lit '.'))) (.plus false cc.word)

/-- The operator alternatives of parser.py:95, in order. -/
def opStrings : List Str := [['='], [':'], ['~'], ['%'], ['>', '='], ['>'], ['<', '='], ['<'], ['+', '='], ['+'], ['-', '='], ['-']]

/-- parser.py:95 `(=|:|~|%|>=|>|<=|<|\+=|\+|\-=|\-)`. -/
def opRe : Re := .alts (opStrings.map .str)

/-- parser.py:96 `\{(?:\w+\.)?\w+?\}|\{\}`. -/
def refRe (cc : CharClass) : Re := .alt (.seq (.lit '{') (.seq (attrRe cc) (.lit '}'))) (.str ['{', '}'])

/-- parser.py:94-97 `expression_regex`. -/
def expressionRe (cc : CharClass) : Re :=
  .seq (.star true cc.space) <| .seq (.cap 1 (attrRe cc)) <| .seq (.star true cc.space) <| .seq (.cap 2 opRe) <|
  .seq (.opt (.cap 3 (refRe cc))) <| .seq (.star true cc.space) <| .seq (.cap 4 (.plus true Re.dot)) <|
  .seq (.star true cc.space) .eol

/-- `s.strip("{}")`, parser.py:176. -/
def stripBraces (s : Str) : Str :=
  let p : Char → Bool := fun c => c = '{' || c = '}'
  ((s.dropWhile p).reverse.dropWhile p).reverse

/-- parser.py:179 `operator.replace(">", "+").replace("<", "-")`. -/
def normalizeOp (op : Str) : Str := op.map (fun c => if c = '>' then '+' else if c = '<' then '-' else c)

/-- attribute, operator, reference, value of a test string. -/
structure TestExpr where
  attr : Str
  op : Str
  ref : Option Str
  value : Str
  deriving DecidableEq, Repr

/-- parser.py:168-187 the string part of `parse_test`: match, strip the reference, normalise the operator;
`none` is the ExpressionError. The attribute lookup is modelled in Registry.lean, `create_test` in Types.lean. -/
def splitTest (cc : CharClass) (test : Str) : Option TestExpr :=
  match (expressionRe cc).match' test with
  | none => none
  | some (c, _) => some {
      attr := (c.get 1).getD []
      op := normalizeOp ((c.get 2).getD [])
      ref := (c.get 3).map stripBraces
      value := (c.get 4).getD [] }

end FF
