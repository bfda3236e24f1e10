import Verif.Model.Lib
/-!
# Model of `src/caverphone.rs`

Every line of the two `encode` functions is one replacement; they are kept in order.
-/

namespace Verif

/-- `SIX_1` (caverphone.rs:21). -/
def six1 : Str := c!"111111"

/-- `TEN_1` (caverphone.rs:22). -/
def ten1 : Str := c!"1111111111"

/-- The characters compacted by both algorithms (caverphone.rs:111 and 249). -/
def compactChars : List Char := c!"stpkfmn"

namespace Caverphone1

/-- caverphone.rs:48-72: the prefix rules. -/
def prefixes (txt : Str) : Str :=
  let txt := replaceStart txt c!"cough" c!"cou2f"
  let txt := replaceStart txt c!"rough" c!"rou2f"
  let txt := replaceStart txt c!"tough" c!"tou2f"
  let txt := replaceStart txt c!"enough" c!"enou2f"
  replaceStart txt c!"gn" c!"2n"

end Caverphone1

/-- caverphone.rs:74-91 and 199-217: the consonant rules, identical in both versions. -/
def cavConsonants (txt : Str) : Str :=
  let txt := replaceEnd txt c!"mb" c!"m2"
  let txt := replaceAll txt c!"cq" c!"2q"
  let txt := replaceAll txt c!"ci" c!"si"
  let txt := replaceAll txt c!"ce" c!"se"
  let txt := replaceAll txt c!"cy" c!"sy"
  let txt := replaceAll txt c!"tch" c!"2ch"
  let txt := replaceAll txt c!"c" c!"k"
  let txt := replaceAll txt c!"q" c!"k"
  let txt := replaceAll txt c!"x" c!"k"
  let txt := replaceAll txt c!"v" c!"f"
  let txt := replaceAll txt c!"dg" c!"2g"
  let txt := replaceAll txt c!"tio" c!"sio"
  let txt := replaceAll txt c!"tia" c!"sia"
  let txt := replaceAll txt c!"d" c!"t"
  let txt := replaceAll txt c!"ph" c!"fh"
  let txt := replaceAll txt c!"b" c!"p"
  let txt := replaceAll txt c!"sh" c!"s2"
  replaceAll txt c!"z" c!"s"

/-- The closure of caverphone.rs:92-98 / 218-224. -/
def vowelStartF (i : Nat) (c : Char) : Char :=
  if i == 0 && isVowel (some c) false then 'A' else c

/-- The closure of caverphone.rs:100-106 / 226-232. -/
def vowelF (_ : Nat) (c : Char) : Char :=
  if isVowel (some c) false then '3' else c

namespace Caverphone1

/-- caverphone.rs:92-134: the vowel rules and the final clean-up. -/
def vowels (txt : Str) : Str :=
  let txt := replaceChar txt vowelStartF
  let txt := replaceChar txt vowelF
  let txt := replaceAll txt c!"3gh3" c!"3kh3"
  let txt := replaceAll txt c!"gh" c!"22"
  let txt := replaceAll txt c!"g" c!"k"
  let txt := replaceCompactAllToUppercase txt compactChars
  let txt := replaceAll txt c!"w3" c!"W3"
  let txt := replaceAll txt c!"wy" c!"Wy"
  let txt := replaceAll txt c!"wh3" c!"Wh3"
  let txt := replaceAll txt c!"why" c!"Why"
  let txt := replaceAll txt c!"w" c!"2"
  let txt := replaceStart txt c!"h" c!"A"
  let txt := replaceAll txt c!"h" c!"2"
  let txt := replaceAll txt c!"r3" c!"R3"
  let txt := replaceAll txt c!"ry" c!"Ry"
  let txt := replaceAll txt c!"r" c!"2"
  let txt := replaceAll txt c!"l3" c!"L3"
  let txt := replaceAll txt c!"ly" c!"Ly"
  let txt := replaceAll txt c!"l" c!"2"
  let txt := replaceAll txt c!"j" c!"y"
  let txt := replaceAll txt c!"y3" c!"Y3"
  let txt := replaceAll txt c!"y" c!"2"
  let txt := replaceAll txt c!"2" []
  replaceAll txt c!"3" []

/-- The code before padding (caverphone.rs:44-134). -/
def body (U : Unicode) (s : Str) : Str :=
  vowels (cavConsonants (prefixes (removeAllNonLetter U (U.strLower s))))

/-- `Caverphone1::encode` (caverphone.rs:39-139); the final `txt[0..6]` is a byte slice. -/
def encode (U : Unicode) (s : Str) : Res Str :=
  if s.isEmpty then .ok six1
  else slice (body U s ++ six1) 0 (byteLen six1)

end Caverphone1

namespace Caverphone2

/-- caverphone.rs:166-197: removal of a final 'e' and the prefix rules. -/
def prefixes (txt : Str) : Str :=
  let txt := replaceEnd txt c!"e" []
  let txt := replaceStart txt c!"cough" c!"cou2f"
  let txt := replaceStart txt c!"rough" c!"rou2f"
  let txt := replaceStart txt c!"tough" c!"tou2f"
  let txt := replaceStart txt c!"enough" c!"enou2f"
  let txt := replaceStart txt c!"trough" c!"trou2f"
  replaceStart txt c!"gn" c!"2n"

/-- caverphone.rs:218-269: the vowel rules and the final clean-up. -/
def vowels (txt : Str) : Str :=
  let txt := replaceChar txt vowelStartF
  let txt := replaceChar txt vowelF
  let txt := replaceAll txt c!"j" c!"y"
  let txt := replaceStart txt c!"y3" c!"Y3"
  let txt := replaceStart txt c!"y" c!"A"
  let txt := replaceAll txt c!"y" c!"3"
  let txt := replaceAll txt c!"3gh3" c!"3kh3"
  let txt := replaceAll txt c!"gh" c!"22"
  let txt := replaceAll txt c!"g" c!"k"
  let txt := replaceCompactAllToUppercase txt compactChars
  let txt := replaceAll txt c!"w3" c!"W3"
  let txt := replaceAll txt c!"wh3" c!"Wh3"
  let txt := replaceEnd txt c!"w" c!"3"
  let txt := replaceAll txt c!"w" c!"2"
  let txt := replaceStart txt c!"h" c!"A"
  let txt := replaceAll txt c!"h" c!"2"
  let txt := replaceAll txt c!"r3" c!"R3"
  let txt := replaceEnd txt c!"r" c!"3"
  let txt := replaceAll txt c!"r" c!"2"
  let txt := replaceAll txt c!"l3" c!"L3"
  let txt := replaceEnd txt c!"l" c!"3"
  let txt := replaceAll txt c!"l" c!"2"
  let txt := replaceAll txt c!"2" []
  let txt := replaceEnd txt c!"3" c!"A"
  replaceAll txt c!"3" []

/-- The code before padding (caverphone.rs:162-269). -/
def body (U : Unicode) (s : Str) : Str :=
  vowels (cavConsonants (prefixes (removeAllNonLetter U (U.strLower s))))

/-- `Caverphone2::encode` (caverphone.rs:157-274). -/
def encode (U : Unicode) (s : Str) : Res Str :=
  if s.isEmpty then .ok ten1
  else slice (body U s ++ ten1) 0 (byteLen ten1)

end Caverphone2

end Verif
