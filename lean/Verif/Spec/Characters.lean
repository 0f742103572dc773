import Verif.Model.Calc

/-! The white space and the digits the lexers tell apart, one by one. -/

namespace BurnFm.Spec

/-- The white space of Unicode: tab, line feed, vertical tab, form feed, carriage return, space, next line, no-break space, Ogham
space mark, the eleven spaces from en quad to hair space, line separator, paragraph separator, narrow no-break space, medium
mathematical space and ideographic space. -/
def whiteSpace : List Char :=
  ['\t', '\n', '\x0B', '\x0C', '\r', ' ', '\u0085', '\u00a0', '\u1680', '\u2000', '\u2001', '\u2002',
    '\u2003', '\u2004', '\u2005', '\u2006', '\u2007', '\u2008', '\u2009', '\u200a', '\u2028', '\u2029', '\u202f', '\u205f', '\u3000']

/-- The decimal digits. -/
def decimalDigits : List Char := ['0', '1', '2', '3', '4', '5', '6', '7', '8', '9']

end BurnFm.Spec
