import Verif.Spec.DaitchMokotoff
/-!
# The Daitch-Mokotoff table

The rules of `rules/dmrules.txt` (pattern; code at the start of a word, before a vowel, elsewhere) and the foldings of accented
letters, in the order of the file, extracted from it by a script that shares nothing with the model of the parser.
-/

namespace Verif.Spec

/-- The rules: pattern, at the start, before a vowel, elsewhere; alternatives are separated by a bar. -/
def dmTable : List (Str × Str × Str × Str) := [
  (c!"a", c!"0", c!"", c!""),
  (c!"e", c!"0", c!"", c!""),
  (c!"i", c!"0", c!"", c!""),
  (c!"o", c!"0", c!"", c!""),
  (c!"u", c!"0", c!"", c!""),
  (c!"b", c!"7", c!"7", c!"7"),
  (c!"d", c!"3", c!"3", c!"3"),
  (c!"f", c!"7", c!"7", c!"7"),
  (c!"g", c!"5", c!"5", c!"5"),
  (c!"h", c!"5", c!"5", c!""),
  (c!"k", c!"5", c!"5", c!"5"),
  (c!"l", c!"8", c!"8", c!"8"),
  (c!"m", c!"6", c!"6", c!"6"),
  (c!"n", c!"6", c!"6", c!"6"),
  (c!"p", c!"7", c!"7", c!"7"),
  (c!"q", c!"5", c!"5", c!"5"),
  (c!"r", c!"9", c!"9", c!"9"),
  (c!"s", c!"4", c!"4", c!"4"),
  (c!"t", c!"3", c!"3", c!"3"),
  (c!"v", c!"7", c!"7", c!"7"),
  (c!"w", c!"7", c!"7", c!"7"),
  (c!"x", c!"5", c!"54", c!"54"),
  (c!"y", c!"1", c!"", c!""),
  (c!"z", c!"4", c!"4", c!"4"),
  (c!"ţ", c!"3|4", c!"3|4", c!"3|4"),
  (c!"ț", c!"3|4", c!"3|4", c!"3|4"),
  (c!"ę", c!"", c!"", c!"|6"),
  (c!"ą", c!"", c!"", c!"|6"),
  (c!"schtsch", c!"2", c!"4", c!"4"),
  (c!"schtsh", c!"2", c!"4", c!"4"),
  (c!"schtch", c!"2", c!"4", c!"4"),
  (c!"shtch", c!"2", c!"4", c!"4"),
  (c!"shtsh", c!"2", c!"4", c!"4"),
  (c!"stsch", c!"2", c!"4", c!"4"),
  (c!"ttsch", c!"4", c!"4", c!"4"),
  (c!"zhdzh", c!"2", c!"4", c!"4"),
  (c!"shch", c!"2", c!"4", c!"4"),
  (c!"scht", c!"2", c!"43", c!"43"),
  (c!"schd", c!"2", c!"43", c!"43"),
  (c!"stch", c!"2", c!"4", c!"4"),
  (c!"strz", c!"2", c!"4", c!"4"),
  (c!"strs", c!"2", c!"4", c!"4"),
  (c!"stsh", c!"2", c!"4", c!"4"),
  (c!"szcz", c!"2", c!"4", c!"4"),
  (c!"szcs", c!"2", c!"4", c!"4"),
  (c!"ttch", c!"4", c!"4", c!"4"),
  (c!"tsch", c!"4", c!"4", c!"4"),
  (c!"ttsz", c!"4", c!"4", c!"4"),
  (c!"zdzh", c!"2", c!"4", c!"4"),
  (c!"zsch", c!"4", c!"4", c!"4"),
  (c!"chs", c!"5", c!"54", c!"54"),
  (c!"csz", c!"4", c!"4", c!"4"),
  (c!"czs", c!"4", c!"4", c!"4"),
  (c!"drz", c!"4", c!"4", c!"4"),
  (c!"drs", c!"4", c!"4", c!"4"),
  (c!"dsh", c!"4", c!"4", c!"4"),
  (c!"dsz", c!"4", c!"4", c!"4"),
  (c!"dzh", c!"4", c!"4", c!"4"),
  (c!"dzs", c!"4", c!"4", c!"4"),
  (c!"sch", c!"4", c!"4", c!"4"),
  (c!"sht", c!"2", c!"43", c!"43"),
  (c!"szt", c!"2", c!"43", c!"43"),
  (c!"shd", c!"2", c!"43", c!"43"),
  (c!"szd", c!"2", c!"43", c!"43"),
  (c!"tch", c!"4", c!"4", c!"4"),
  (c!"trz", c!"4", c!"4", c!"4"),
  (c!"trs", c!"4", c!"4", c!"4"),
  (c!"tsh", c!"4", c!"4", c!"4"),
  (c!"tts", c!"4", c!"4", c!"4"),
  (c!"ttz", c!"4", c!"4", c!"4"),
  (c!"tzs", c!"4", c!"4", c!"4"),
  (c!"tsz", c!"4", c!"4", c!"4"),
  (c!"zdz", c!"2", c!"4", c!"4"),
  (c!"zhd", c!"2", c!"43", c!"43"),
  (c!"zsh", c!"4", c!"4", c!"4"),
  (c!"ai", c!"0", c!"1", c!""),
  (c!"aj", c!"0", c!"1", c!""),
  (c!"ay", c!"0", c!"1", c!""),
  (c!"au", c!"0", c!"7", c!""),
  (c!"cz", c!"4", c!"4", c!"4"),
  (c!"cs", c!"4", c!"4", c!"4"),
  (c!"ds", c!"4", c!"4", c!"4"),
  (c!"dz", c!"4", c!"4", c!"4"),
  (c!"dt", c!"3", c!"3", c!"3"),
  (c!"ei", c!"0", c!"1", c!""),
  (c!"ej", c!"0", c!"1", c!""),
  (c!"ey", c!"0", c!"1", c!""),
  (c!"eu", c!"1", c!"1", c!""),
  (c!"fb", c!"7", c!"7", c!"7"),
  (c!"ia", c!"1", c!"", c!""),
  (c!"ie", c!"1", c!"", c!""),
  (c!"io", c!"1", c!"", c!""),
  (c!"iu", c!"1", c!"", c!""),
  (c!"ks", c!"5", c!"54", c!"54"),
  (c!"kh", c!"5", c!"5", c!"5"),
  (c!"mn", c!"66", c!"66", c!"66"),
  (c!"nm", c!"66", c!"66", c!"66"),
  (c!"oi", c!"0", c!"1", c!""),
  (c!"oj", c!"0", c!"1", c!""),
  (c!"oy", c!"0", c!"1", c!""),
  (c!"pf", c!"7", c!"7", c!"7"),
  (c!"ph", c!"7", c!"7", c!"7"),
  (c!"sh", c!"4", c!"4", c!"4"),
  (c!"sc", c!"2", c!"4", c!"4"),
  (c!"st", c!"2", c!"43", c!"43"),
  (c!"sd", c!"2", c!"43", c!"43"),
  (c!"sz", c!"4", c!"4", c!"4"),
  (c!"th", c!"3", c!"3", c!"3"),
  (c!"ts", c!"4", c!"4", c!"4"),
  (c!"tc", c!"4", c!"4", c!"4"),
  (c!"tz", c!"4", c!"4", c!"4"),
  (c!"ui", c!"0", c!"1", c!""),
  (c!"uj", c!"0", c!"1", c!""),
  (c!"uy", c!"0", c!"1", c!""),
  (c!"ue", c!"0", c!"1", c!""),
  (c!"zd", c!"2", c!"43", c!"43"),
  (c!"zh", c!"4", c!"4", c!"4"),
  (c!"zs", c!"4", c!"4", c!"4"),
  (c!"c", c!"4|5", c!"4|5", c!"4|5"),
  (c!"ch", c!"4|5", c!"4|5", c!"4|5"),
  (c!"ck", c!"5|45", c!"5|45", c!"5|45"),
  (c!"rs", c!"4|94", c!"4|94", c!"4|94"),
  (c!"rz", c!"4|94", c!"4|94", c!"4|94"),
  (c!"j", c!"1|4", c!"|4", c!"|4")]

/-- The foldings of letters. -/
def dmFoldings : List (Char × Char) := [
  ('ß', 's'), ('à', 'a'), ('á', 'a'), ('â', 'a'), ('ã', 'a'), ('ä', 'a'), ('å', 'a'), ('æ', 'a'),
  ('ç', 'c'), ('è', 'e'), ('é', 'e'), ('ê', 'e'), ('ë', 'e'), ('ì', 'i'), ('í', 'i'), ('î', 'i'),
  ('ï', 'i'), ('ð', 'd'), ('ñ', 'n'), ('ò', 'o'), ('ó', 'o'), ('ô', 'o'), ('õ', 'o'), ('ö', 'o'),
  ('ø', 'o'), ('ù', 'u'), ('ú', 'u'), ('û', 'u'), ('ý', 'y'), ('ý', 'y'), ('þ', 'b'), ('ÿ', 'y'),
  ('ć', 'c'), ('ł', 'l'), ('ś', 's'), ('ż', 'z'), ('ź', 'z')]

/-- The rules with their alternatives. -/
def dmTableRules : List DMSpecRule :=
  dmTable.map fun r => ⟨r.1, alternatives r.2.1, alternatives r.2.2.1, alternatives r.2.2.2⟩

/-- The folding of a letter. -/
def dmTableFold (c : Char) : Option Char := (dmFoldings.find? fun p => p.1 == c).map (·.2)

end Verif.Spec
