import Verif.Py.Str

/-!
# White space and digits of Unicode

The tables were written from the Unicode Character Database: `White_Space`, and the first of each run of ten characters of the general category `Nd`
(Unicode 14).
-/

namespace Colosseum

/-- The white space outside ASCII: next line, no-break spaces, the spaces of fixed width, line and paragraph separator, ideographic space. -/
def wideSpaces : PyStr :=
  "\u0085\u00a0\u1680\u2000\u2001\u2002\u2003\u2004\u2005\u2006\u2007\u2008\u2009\u200a\u2028\u2029\u202f\u205f\u3000".toList

/-- The digit zero of every script. The digits one to nine of the script follow it. -/
def scriptZeros : PyStr :=
  "0٠۰߀०০੦૦୦௦౦೦൦෦๐໐༠၀႐០᠐᥆᧐᪀᪐᭐᮰᱀᱐꘠꣐꤀꧐꧰꩐꯰０𐒠𐴰𑁦𑃰𑄶𑇐𑋰𑑐𑓐𑙐𑛀𑜰𑣠𑥐𑱐𑵐𑶠𖩠𖫀𖭐𝟎𝟘𝟢𝟬𝟶𞅀𞋰𞥐🯰".toList

end Colosseum
