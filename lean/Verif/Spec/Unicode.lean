import Verif.Model.Exc
/-! # Specification: digits and numbers of any script -/

namespace Verif.Spec

open Verif

/-- The decimal digits of all scripts in order, as in Unicode 14. -/
def digitScripts : List PStr :=
  [p!"0123456789", p!"٠١٢٣٤٥٦٧٨٩", p!"۰۱۲۳۴۵۶۷۸۹",
   p!"߀߁߂߃߄߅߆߇߈߉", p!"०१२३४५६७८९", p!"০১২৩৪৫৬৭৮৯",
   p!"੦੧੨੩੪੫੬੭੮੯", p!"૦૧૨૩૪૫૬૭૮૯", p!"୦୧୨୩୪୫୬୭୮୯",
   p!"௦௧௨௩௪௫௬௭௮௯", p!"౦౧౨౩౪౫౬౭౮౯", p!"೦೧೨೩೪೫೬೭೮೯",
   p!"൦൧൨൩൪൫൬൭൮൯", p!"෦෧෨෩෪෫෬෭෮෯", p!"๐๑๒๓๔๕๖๗๘๙",
   p!"໐໑໒໓໔໕໖໗໘໙", p!"༠༡༢༣༤༥༦༧༨༩", p!"၀၁၂၃၄၅၆၇၈၉",
   p!"႐႑႒႓႔႕႖႗႘႙", p!"០១២៣៤៥៦៧៨៩", p!"᠐᠑᠒᠓᠔᠕᠖᠗᠘᠙",
   p!"᥆᥇᥈᥉᥊᥋᥌᥍᥎᥏", p!"᧐᧑᧒᧓᧔᧕᧖᧗᧘᧙", p!"᪀᪁᪂᪃᪄᪅᪆᪇᪈᪉",
   p!"᪐᪑᪒᪓᪔᪕᪖᪗᪘᪙", p!"᭐᭑᭒᭓᭔᭕᭖᭗᭘᭙", p!"᮰᮱᮲᮳᮴᮵᮶᮷᮸᮹",
   p!"᱀᱁᱂᱃᱄᱅᱆᱇᱈᱉", p!"᱐᱑᱒᱓᱔᱕᱖᱗᱘᱙", p!"꘠꘡꘢꘣꘤꘥꘦꘧꘨꘩",
   p!"꣐꣑꣒꣓꣔꣕꣖꣗꣘꣙", p!"꤀꤁꤂꤃꤄꤅꤆꤇꤈꤉", p!"꧐꧑꧒꧓꧔꧕꧖꧗꧘꧙",
   p!"꧰꧱꧲꧳꧴꧵꧶꧷꧸꧹", p!"꩐꩑꩒꩓꩔꩕꩖꩗꩘꩙", p!"꯰꯱꯲꯳꯴꯵꯶꯷꯸꯹",
   p!"０１２３４５６７８９", p!"𐒠𐒡𐒢𐒣𐒤𐒥𐒦𐒧𐒨𐒩", p!"𐴰𐴱𐴲𐴳𐴴𐴵𐴶𐴷𐴸𐴹",
   p!"𑁦𑁧𑁨𑁩𑁪𑁫𑁬𑁭𑁮𑁯", p!"𑃰𑃱𑃲𑃳𑃴𑃵𑃶𑃷𑃸𑃹", p!"𑄶𑄷𑄸𑄹𑄺𑄻𑄼𑄽𑄾𑄿",
   p!"𑇐𑇑𑇒𑇓𑇔𑇕𑇖𑇗𑇘𑇙", p!"𑋰𑋱𑋲𑋳𑋴𑋵𑋶𑋷𑋸𑋹", p!"𑑐𑑑𑑒𑑓𑑔𑑕𑑖𑑗𑑘𑑙",
   p!"𑓐𑓑𑓒𑓓𑓔𑓕𑓖𑓗𑓘𑓙", p!"𑙐𑙑𑙒𑙓𑙔𑙕𑙖𑙗𑙘𑙙", p!"𑛀𑛁𑛂𑛃𑛄𑛅𑛆𑛇𑛈𑛉",
   p!"𑜰𑜱𑜲𑜳𑜴𑜵𑜶𑜷𑜸𑜹", p!"𑣠𑣡𑣢𑣣𑣤𑣥𑣦𑣧𑣨𑣩", p!"𑥐𑥑𑥒𑥓𑥔𑥕𑥖𑥗𑥘𑥙",
   p!"𑱐𑱑𑱒𑱓𑱔𑱕𑱖𑱗𑱘𑱙", p!"𑵐𑵑𑵒𑵓𑵔𑵕𑵖𑵗𑵘𑵙", p!"𑶠𑶡𑶢𑶣𑶤𑶥𑶦𑶧𑶨𑶩",
   p!"𖩠𖩡𖩢𖩣𖩤𖩥𖩦𖩧𖩨𖩩", p!"𖫀𖫁𖫂𖫃𖫄𖫅𖫆𖫇𖫈𖫉", p!"𖭐𖭑𖭒𖭓𖭔𖭕𖭖𖭗𖭘𖭙",
   p!"𝟎𝟏𝟐𝟑𝟒𝟓𝟔𝟕𝟖𝟗", p!"𝟘𝟙𝟚𝟛𝟜𝟝𝟞𝟟𝟠𝟡", p!"𝟢𝟣𝟤𝟥𝟦𝟧𝟨𝟩𝟪𝟫",
   p!"𝟬𝟭𝟮𝟯𝟰𝟱𝟲𝟳𝟴𝟵", p!"𝟶𝟷𝟸𝟹𝟺𝟻𝟼𝟽𝟾𝟿", p!"𞅀𞅁𞅂𞅃𞅄𞅅𞅆𞅇𞅈𞅉",
   p!"𞋰𞋱𞋲𞋳𞋴𞋵𞋶𞋷𞋸𞋹", p!"𞥐𞥑𞥒𞥓𞥔𞥕𞥖𞥗𞥘𞥙", p!"🯰🯱🯲🯳🯴🯵🯶🯷🯸🯹"]

/-- `c` is the decimal digit of value `d` of some script. -/
def Decimal (c : Char) (d : Nat) : Prop := ∃ s ∈ digitScripts, s[d]? = some c

/-- The white space characters above 126: the next line, the no-break spaces, the Ogham space, the
quads and spaces of general punctuation, the two separators, the mathematical and the ideographic
space. -/
def wideBlanks : List Char :=
  ['\u0085', '\u00a0', '\u202f', '\u1680', '\u2000', '\u2001', '\u2002', '\u2003', '\u2004', '\u2005',
   '\u2006', '\u2007', '\u2008', '\u2009', '\u200a', '\u2028', '\u2029', '\u205f', '\u3000']

/-- White space around a number. -/
def Blank (c : Char) : Prop :=
  c = ' ' ∨ (9 ≤ c.toNat ∧ c.toNat ≤ 13) ∨ c ∈ wideBlanks

/-- The text is a run of decimal digits, of value `n`. -/
inductive Digits : PStr → Nat → Prop
  | one {c : Char} {d : Nat} : Decimal c d → Digits [c] d
  | more {s : PStr} {n : Nat} {c : Char} {d : Nat} :
      Digits s n → Decimal c d → Digits (s ++ [c]) (10 * n + d)

/-- The text is a decimal number that does not start with a superfluous `0`. -/
def Numeral (s : PStr) (n : Nat) : Prop := Digits s n ∧ (s.head? = some '0' → s = p!"0")

end Verif.Spec
