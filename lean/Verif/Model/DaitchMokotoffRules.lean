import Verif.Model.DaitchMokotoff
/-!
# `rules/dmrules.txt`, the embedded Daitch-Mokotoff rules

Generated from the file, line by line.
-/

namespace Verif
namespace DaitchMokotoff

/-- The contents of `rules/dmrules.txt`, `DEFAULT_RULES` (daitch_mokotoff.rs:27). -/
def defaultRules : Str := [
  c!"/*\n",
  c!" * Licensed to the Apache Software Foundation (ASF) under one or more\n",
  c!" * contributor license agreements.  See the NOTICE file distributed with\n",
  c!" * this work for additional information regarding copyright ownership.\n",
  c!" * The ASF licenses this file to You under the Apache License, Version 2.0\n",
  c!" * (the \"License\"); you may not use this file except in compliance with\n",
  c!" * the License.  You may obtain a copy of the License at\n",
  c!" *\n",
  c!" *      http://www.apache.org/licenses/LICENSE-2.0\n",
  c!" *\n",
  c!" * Unless required by applicable law or agreed to in writing, software\n",
  c!" * distributed under the License is distributed on an \"AS IS\" BASIS,\n",
  c!" * WITHOUT WARRANTIES OR CONDITIONS OF ANY KIND, either express or implied.\n",
  c!" * See the License for the specific language governing permissions and\n",
  c!" * limitations under the License.\n",
  c!" */\n",
  c!"\n",
  c!"// Format\n",
  c!"// \"pattern\" \"replacement at start of word\" \"replacement before a vowel\" \"replacement in other cases\"\n",
  c!"\n",
  c!"// Vowels\n",
  c!"\n",
  c!"\"a\" \"0\" \"\" \"\"\n",
  c!"\"e\" \"0\" \"\" \"\"\n",
  c!"\"i\" \"0\" \"\" \"\"\n",
  c!"\"o\" \"0\" \"\" \"\"\n",
  c!"\"u\" \"0\" \"\" \"\"\n",
  c!"\n",
  c!"// Consonants\n",
  c!"\n",
  c!"\"b\" \"7\" \"7\" \"7\"\n",
  c!"\"d\" \"3\" \"3\" \"3\"\n",
  c!"\"f\" \"7\" \"7\" \"7\"\n",
  c!"\"g\" \"5\" \"5\" \"5\"\n",
  c!"\"h\" \"5\" \"5\" \"\"\n",
  c!"\"k\" \"5\" \"5\" \"5\"\n",
  c!"\"l\" \"8\" \"8\" \"8\"\n",
  c!"\"m\" \"6\" \"6\" \"6\"\n",
  c!"\"n\" \"6\" \"6\" \"6\"\n",
  c!"\"p\" \"7\" \"7\" \"7\"\n",
  c!"\"q\" \"5\" \"5\" \"5\"\n",
  c!"\"r\" \"9\" \"9\" \"9\"\n",
  c!"\"s\" \"4\" \"4\" \"4\"\n",
  c!"\"t\" \"3\" \"3\" \"3\"\n",
  c!"\"v\" \"7\" \"7\" \"7\"\n",
  c!"\"w\" \"7\" \"7\" \"7\"\n",
  c!"\"x\" \"5\" \"54\" \"54\"\n",
  c!"\"y\" \"1\" \"\" \"\"\n",
  c!"\"z\" \"4\" \"4\" \"4\"\n",
  c!"\n",
  c!"// Romanian t-cedilla and t-comma should be equivalent\n",
  c!"\"ţ\" \"3|4\" \"3|4\" \"3|4\"\n",
  c!"\"ț\" \"3|4\" \"3|4\" \"3|4\"\n",
  c!"\n",
  c!"// Polish characters (e-ogonek and a-ogonek): default case branch either not coded or 6\n",
  c!"\"ę\" \"\" \"\" \"|6\"\n",
  c!"\"ą\" \"\" \"\" \"|6\"\n",
  c!"\n",
  c!"// Other terms\n",
  c!"\n",
  c!"\"schtsch\" \"2\" \"4\" \"4\"\n",
  c!"\"schtsh\" \"2\" \"4\" \"4\"\n",
  c!"\"schtch\" \"2\" \"4\" \"4\"\n",
  c!"\"shtch\" \"2\" \"4\" \"4\"\n",
  c!"\"shtsh\" \"2\" \"4\" \"4\"\n",
  c!"\"stsch\" \"2\" \"4\" \"4\"\n",
  c!"\"ttsch\" \"4\" \"4\" \"4\"\n",
  c!"\"zhdzh\" \"2\" \"4\" \"4\"\n",
  c!"\"shch\" \"2\" \"4\" \"4\"\n",
  c!"\"scht\" \"2\" \"43\" \"43\"\n",
  c!"\"schd\" \"2\" \"43\" \"43\"\n",
  c!"\"stch\" \"2\" \"4\" \"4\"\n",
  c!"\"strz\" \"2\" \"4\" \"4\"\n",
  c!"\"strs\" \"2\" \"4\" \"4\"\n",
  c!"\"stsh\" \"2\" \"4\" \"4\"\n",
  c!"\"szcz\" \"2\" \"4\" \"4\"\n",
  c!"\"szcs\" \"2\" \"4\" \"4\"\n",
  c!"\"ttch\" \"4\" \"4\" \"4\"\n",
  c!"\"tsch\" \"4\" \"4\" \"4\"\n",
  c!"\"ttsz\" \"4\" \"4\" \"4\"\n",
  c!"\"zdzh\" \"2\" \"4\" \"4\"\n",
  c!"\"zsch\" \"4\" \"4\" \"4\"\n",
  c!"\"chs\" \"5\" \"54\" \"54\"\n",
  c!"\"csz\" \"4\" \"4\" \"4\"\n",
  c!"\"czs\" \"4\" \"4\" \"4\"\n",
  c!"\"drz\" \"4\" \"4\" \"4\"\n",
  c!"\"drs\" \"4\" \"4\" \"4\"\n",
  c!"\"dsh\" \"4\" \"4\" \"4\"\n",
  c!"\"dsz\" \"4\" \"4\" \"4\"\n",
  c!"\"dzh\" \"4\" \"4\" \"4\"\n",
  c!"\"dzs\" \"4\" \"4\" \"4\"\n",
  c!"\"sch\" \"4\" \"4\" \"4\"\n",
  c!"\"sht\" \"2\" \"43\" \"43\"\n",
  c!"\"szt\" \"2\" \"43\" \"43\"\n",
  c!"\"shd\" \"2\" \"43\" \"43\"\n",
  c!"\"szd\" \"2\" \"43\" \"43\"\n",
  c!"\"tch\" \"4\" \"4\" \"4\"\n",
  c!"\"trz\" \"4\" \"4\" \"4\"\n",
  c!"\"trs\" \"4\" \"4\" \"4\"\n",
  c!"\"tsh\" \"4\" \"4\" \"4\"\n",
  c!"\"tts\" \"4\" \"4\" \"4\"\n",
  c!"\"ttz\" \"4\" \"4\" \"4\"\n",
  c!"\"tzs\" \"4\" \"4\" \"4\"\n",
  c!"\"tsz\" \"4\" \"4\" \"4\"\n",
  c!"\"zdz\" \"2\" \"4\" \"4\"\n",
  c!"\"zhd\" \"2\" \"43\" \"43\"\n",
  c!"\"zsh\" \"4\" \"4\" \"4\"\n",
  c!"\"ai\" \"0\" \"1\" \"\"\n",
  c!"\"aj\" \"0\" \"1\" \"\"\n",
  c!"\"ay\" \"0\" \"1\" \"\"\n",
  c!"\"au\" \"0\" \"7\" \"\"\n",
  c!"\"cz\" \"4\" \"4\" \"4\"\n",
  c!"\"cs\" \"4\" \"4\" \"4\"\n",
  c!"\"ds\" \"4\" \"4\" \"4\"\n",
  c!"\"dz\" \"4\" \"4\" \"4\"\n",
  c!"\"dt\" \"3\" \"3\" \"3\"\n",
  c!"\"ei\" \"0\" \"1\" \"\"\n",
  c!"\"ej\" \"0\" \"1\" \"\"\n",
  c!"\"ey\" \"0\" \"1\" \"\"\n",
  c!"\"eu\" \"1\" \"1\" \"\"\n",
  c!"\"fb\" \"7\" \"7\" \"7\"\n",
  c!"\"ia\" \"1\" \"\" \"\"\n",
  c!"\"ie\" \"1\" \"\" \"\"\n",
  c!"\"io\" \"1\" \"\" \"\"\n",
  c!"\"iu\" \"1\" \"\" \"\"\n",
  c!"\"ks\" \"5\" \"54\" \"54\"\n",
  c!"\"kh\" \"5\" \"5\" \"5\"\n",
  c!"\"mn\" \"66\" \"66\" \"66\"\n",
  c!"\"nm\" \"66\" \"66\" \"66\"\n",
  c!"\"oi\" \"0\" \"1\" \"\"\n",
  c!"\"oj\" \"0\" \"1\" \"\"\n",
  c!"\"oy\" \"0\" \"1\" \"\"\n",
  c!"\"pf\" \"7\" \"7\" \"7\"\n",
  c!"\"ph\" \"7\" \"7\" \"7\"\n",
  c!"\"sh\" \"4\" \"4\" \"4\"\n",
  c!"\"sc\" \"2\" \"4\" \"4\"\n",
  c!"\"st\" \"2\" \"43\" \"43\"\n",
  c!"\"sd\" \"2\" \"43\" \"43\"\n",
  c!"\"sz\" \"4\" \"4\" \"4\"\n",
  c!"\"th\" \"3\" \"3\" \"3\"\n",
  c!"\"ts\" \"4\" \"4\" \"4\"\n",
  c!"\"tc\" \"4\" \"4\" \"4\"\n",
  c!"\"tz\" \"4\" \"4\" \"4\"\n",
  c!"\"ui\" \"0\" \"1\" \"\"\n",
  c!"\"uj\" \"0\" \"1\" \"\"\n",
  c!"\"uy\" \"0\" \"1\" \"\"\n",
  c!"\"ue\" \"0\" \"1\" \"\"\n",
  c!"\"zd\" \"2\" \"43\" \"43\"\n",
  c!"\"zh\" \"4\" \"4\" \"4\"\n",
  c!"\"zs\" \"4\" \"4\" \"4\"\n",
  c!"\n",
  c!"// Branching cases\n",
  c!"\n",
  c!"\"c\" \"4|5\" \"4|5\" \"4|5\"\n",
  c!"\"ch\" \"4|5\" \"4|5\" \"4|5\"\n",
  c!"\"ck\" \"5|45\" \"5|45\" \"5|45\"\n",
  c!"\"rs\" \"4|94\" \"4|94\" \"4|94\"\n",
  c!"\"rz\" \"4|94\" \"4|94\" \"4|94\"\n",
  c!"\"j\" \"1|4\" \"|4\" \"|4\"\n",
  c!"\n",
  c!"\n",
  c!"// ASCII foldings\n",
  c!"\n",
  c!"ß=s\n",
  c!"à=a\n",
  c!"á=a\n",
  c!"â=a\n",
  c!"ã=a\n",
  c!"ä=a\n",
  c!"å=a\n",
  c!"æ=a\n",
  c!"ç=c\n",
  c!"è=e\n",
  c!"é=e\n",
  c!"ê=e\n",
  c!"ë=e\n",
  c!"ì=i\n",
  c!"í=i\n",
  c!"î=i\n",
  c!"ï=i\n",
  c!"ð=d\n",
  c!"ñ=n\n",
  c!"ò=o\n",
  c!"ó=o\n",
  c!"ô=o\n",
  c!"õ=o\n",
  c!"ö=o\n",
  c!"ø=o\n",
  c!"ù=u\n",
  c!"ú=u\n",
  c!"û=u\n",
  c!"ý=y\n",
  c!"ý=y\n",
  c!"þ=b\n",
  c!"ÿ=y\n",
  c!"ć=c\n",
  c!"ł=l\n",
  c!"ś=s\n",
  c!"ż=z\n",
  c!"ź=z\n"].flatten

/-- The encoder built from the embedded rules (daitch_mokotoff.rs:259-263). -/
def defaultEncoder : DaitchMokotoff where
  asciiFolding := true
  rules := [
    ('j', [
      ⟨c!"j", [c!"1", c!"4"], [c!"", c!"4"], [c!"", c!"4"]⟩]),
    ('r', [
      ⟨c!"rs", [c!"4", c!"94"], [c!"4", c!"94"], [c!"4", c!"94"]⟩,
      ⟨c!"rz", [c!"4", c!"94"], [c!"4", c!"94"], [c!"4", c!"94"]⟩,
      ⟨c!"r", [c!"9"], [c!"9"], [c!"9"]⟩]),
    ('c', [
      ⟨c!"chs", [c!"5"], [c!"54"], [c!"54"]⟩,
      ⟨c!"csz", [c!"4"], [c!"4"], [c!"4"]⟩,
      ⟨c!"czs", [c!"4"], [c!"4"], [c!"4"]⟩,
      ⟨c!"cz", [c!"4"], [c!"4"], [c!"4"]⟩,
      ⟨c!"cs", [c!"4"], [c!"4"], [c!"4"]⟩,
      ⟨c!"ch", [c!"4", c!"5"], [c!"4", c!"5"], [c!"4", c!"5"]⟩,
      ⟨c!"ck", [c!"5", c!"45"], [c!"5", c!"45"], [c!"5", c!"45"]⟩,
      ⟨c!"c", [c!"4", c!"5"], [c!"4", c!"5"], [c!"4", c!"5"]⟩]),
    ('z', [
      ⟨c!"zhdzh", [c!"2"], [c!"4"], [c!"4"]⟩,
      ⟨c!"zdzh", [c!"2"], [c!"4"], [c!"4"]⟩,
      ⟨c!"zsch", [c!"4"], [c!"4"], [c!"4"]⟩,
      ⟨c!"zdz", [c!"2"], [c!"4"], [c!"4"]⟩,
      ⟨c!"zhd", [c!"2"], [c!"43"], [c!"43"]⟩,
      ⟨c!"zsh", [c!"4"], [c!"4"], [c!"4"]⟩,
      ⟨c!"zd", [c!"2"], [c!"43"], [c!"43"]⟩,
      ⟨c!"zh", [c!"4"], [c!"4"], [c!"4"]⟩,
      ⟨c!"zs", [c!"4"], [c!"4"], [c!"4"]⟩,
      ⟨c!"z", [c!"4"], [c!"4"], [c!"4"]⟩]),
    ('u', [
      ⟨c!"ui", [c!"0"], [c!"1"], [c!""]⟩,
      ⟨c!"uj", [c!"0"], [c!"1"], [c!""]⟩,
      ⟨c!"uy", [c!"0"], [c!"1"], [c!""]⟩,
      ⟨c!"ue", [c!"0"], [c!"1"], [c!""]⟩,
      ⟨c!"u", [c!"0"], [c!""], [c!""]⟩]),
    ('t', [
      ⟨c!"ttsch", [c!"4"], [c!"4"], [c!"4"]⟩,
      ⟨c!"ttch", [c!"4"], [c!"4"], [c!"4"]⟩,
      ⟨c!"tsch", [c!"4"], [c!"4"], [c!"4"]⟩,
      ⟨c!"ttsz", [c!"4"], [c!"4"], [c!"4"]⟩,
      ⟨c!"tch", [c!"4"], [c!"4"], [c!"4"]⟩,
      ⟨c!"trz", [c!"4"], [c!"4"], [c!"4"]⟩,
      ⟨c!"trs", [c!"4"], [c!"4"], [c!"4"]⟩,
      ⟨c!"tsh", [c!"4"], [c!"4"], [c!"4"]⟩,
      ⟨c!"tts", [c!"4"], [c!"4"], [c!"4"]⟩,
      ⟨c!"ttz", [c!"4"], [c!"4"], [c!"4"]⟩,
      ⟨c!"tzs", [c!"4"], [c!"4"], [c!"4"]⟩,
      ⟨c!"tsz", [c!"4"], [c!"4"], [c!"4"]⟩,
      ⟨c!"th", [c!"3"], [c!"3"], [c!"3"]⟩,
      ⟨c!"ts", [c!"4"], [c!"4"], [c!"4"]⟩,
      ⟨c!"tc", [c!"4"], [c!"4"], [c!"4"]⟩,
      ⟨c!"tz", [c!"4"], [c!"4"], [c!"4"]⟩,
      ⟨c!"t", [c!"3"], [c!"3"], [c!"3"]⟩]),
    ('s', [
      ⟨c!"schtsch", [c!"2"], [c!"4"], [c!"4"]⟩,
      ⟨c!"schtsh", [c!"2"], [c!"4"], [c!"4"]⟩,
      ⟨c!"schtch", [c!"2"], [c!"4"], [c!"4"]⟩,
      ⟨c!"shtch", [c!"2"], [c!"4"], [c!"4"]⟩,
      ⟨c!"shtsh", [c!"2"], [c!"4"], [c!"4"]⟩,
      ⟨c!"stsch", [c!"2"], [c!"4"], [c!"4"]⟩,
      ⟨c!"shch", [c!"2"], [c!"4"], [c!"4"]⟩,
      ⟨c!"scht", [c!"2"], [c!"43"], [c!"43"]⟩,
      ⟨c!"schd", [c!"2"], [c!"43"], [c!"43"]⟩,
      ⟨c!"stch", [c!"2"], [c!"4"], [c!"4"]⟩,
      ⟨c!"strz", [c!"2"], [c!"4"], [c!"4"]⟩,
      ⟨c!"strs", [c!"2"], [c!"4"], [c!"4"]⟩,
      ⟨c!"stsh", [c!"2"], [c!"4"], [c!"4"]⟩,
      ⟨c!"szcz", [c!"2"], [c!"4"], [c!"4"]⟩,
      ⟨c!"szcs", [c!"2"], [c!"4"], [c!"4"]⟩,
      ⟨c!"sch", [c!"4"], [c!"4"], [c!"4"]⟩,
      ⟨c!"sht", [c!"2"], [c!"43"], [c!"43"]⟩,
      ⟨c!"szt", [c!"2"], [c!"43"], [c!"43"]⟩,
      ⟨c!"shd", [c!"2"], [c!"43"], [c!"43"]⟩,
      ⟨c!"szd", [c!"2"], [c!"43"], [c!"43"]⟩,
      ⟨c!"sh", [c!"4"], [c!"4"], [c!"4"]⟩,
      ⟨c!"sc", [c!"2"], [c!"4"], [c!"4"]⟩,
      ⟨c!"st", [c!"2"], [c!"43"], [c!"43"]⟩,
      ⟨c!"sd", [c!"2"], [c!"43"], [c!"43"]⟩,
      ⟨c!"sz", [c!"4"], [c!"4"], [c!"4"]⟩,
      ⟨c!"s", [c!"4"], [c!"4"], [c!"4"]⟩]),
    ('p', [
      ⟨c!"pf", [c!"7"], [c!"7"], [c!"7"]⟩,
      ⟨c!"ph", [c!"7"], [c!"7"], [c!"7"]⟩,
      ⟨c!"p", [c!"7"], [c!"7"], [c!"7"]⟩]),
    ('o', [
      ⟨c!"oi", [c!"0"], [c!"1"], [c!""]⟩,
      ⟨c!"oj", [c!"0"], [c!"1"], [c!""]⟩,
      ⟨c!"oy", [c!"0"], [c!"1"], [c!""]⟩,
      ⟨c!"o", [c!"0"], [c!""], [c!""]⟩]),
    ('n', [
      ⟨c!"nm", [c!"66"], [c!"66"], [c!"66"]⟩,
      ⟨c!"n", [c!"6"], [c!"6"], [c!"6"]⟩]),
    ('m', [
      ⟨c!"mn", [c!"66"], [c!"66"], [c!"66"]⟩,
      ⟨c!"m", [c!"6"], [c!"6"], [c!"6"]⟩]),
    ('k', [
      ⟨c!"ks", [c!"5"], [c!"54"], [c!"54"]⟩,
      ⟨c!"kh", [c!"5"], [c!"5"], [c!"5"]⟩,
      ⟨c!"k", [c!"5"], [c!"5"], [c!"5"]⟩]),
    ('i', [
      ⟨c!"ia", [c!"1"], [c!""], [c!""]⟩,
      ⟨c!"ie", [c!"1"], [c!""], [c!""]⟩,
      ⟨c!"io", [c!"1"], [c!""], [c!""]⟩,
      ⟨c!"iu", [c!"1"], [c!""], [c!""]⟩,
      ⟨c!"i", [c!"0"], [c!""], [c!""]⟩]),
    ('f', [
      ⟨c!"fb", [c!"7"], [c!"7"], [c!"7"]⟩,
      ⟨c!"f", [c!"7"], [c!"7"], [c!"7"]⟩]),
    ('e', [
      ⟨c!"ei", [c!"0"], [c!"1"], [c!""]⟩,
      ⟨c!"ej", [c!"0"], [c!"1"], [c!""]⟩,
      ⟨c!"ey", [c!"0"], [c!"1"], [c!""]⟩,
      ⟨c!"eu", [c!"1"], [c!"1"], [c!""]⟩,
      ⟨c!"e", [c!"0"], [c!""], [c!""]⟩]),
    ('d', [
      ⟨c!"drz", [c!"4"], [c!"4"], [c!"4"]⟩,
      ⟨c!"drs", [c!"4"], [c!"4"], [c!"4"]⟩,
      ⟨c!"dsh", [c!"4"], [c!"4"], [c!"4"]⟩,
      ⟨c!"dsz", [c!"4"], [c!"4"], [c!"4"]⟩,
      ⟨c!"dzh", [c!"4"], [c!"4"], [c!"4"]⟩,
      ⟨c!"dzs", [c!"4"], [c!"4"], [c!"4"]⟩,
      ⟨c!"ds", [c!"4"], [c!"4"], [c!"4"]⟩,
      ⟨c!"dz", [c!"4"], [c!"4"], [c!"4"]⟩,
      ⟨c!"dt", [c!"3"], [c!"3"], [c!"3"]⟩,
      ⟨c!"d", [c!"3"], [c!"3"], [c!"3"]⟩]),
    ('a', [
      ⟨c!"ai", [c!"0"], [c!"1"], [c!""]⟩,
      ⟨c!"aj", [c!"0"], [c!"1"], [c!""]⟩,
      ⟨c!"ay", [c!"0"], [c!"1"], [c!""]⟩,
      ⟨c!"au", [c!"0"], [c!"7"], [c!""]⟩,
      ⟨c!"a", [c!"0"], [c!""], [c!""]⟩]),
    ('ą', [
      ⟨c!"ą", [c!""], [c!""], [c!"", c!"6"]⟩]),
    ('ę', [
      ⟨c!"ę", [c!""], [c!""], [c!"", c!"6"]⟩]),
    ('ț', [
      ⟨c!"ț", [c!"3", c!"4"], [c!"3", c!"4"], [c!"3", c!"4"]⟩]),
    ('ţ', [
      ⟨c!"ţ", [c!"3", c!"4"], [c!"3", c!"4"], [c!"3", c!"4"]⟩]),
    ('y', [
      ⟨c!"y", [c!"1"], [c!""], [c!""]⟩]),
    ('x', [
      ⟨c!"x", [c!"5"], [c!"54"], [c!"54"]⟩]),
    ('w', [
      ⟨c!"w", [c!"7"], [c!"7"], [c!"7"]⟩]),
    ('v', [
      ⟨c!"v", [c!"7"], [c!"7"], [c!"7"]⟩]),
    ('q', [
      ⟨c!"q", [c!"5"], [c!"5"], [c!"5"]⟩]),
    ('l', [
      ⟨c!"l", [c!"8"], [c!"8"], [c!"8"]⟩]),
    ('h', [
      ⟨c!"h", [c!"5"], [c!"5"], [c!""]⟩]),
    ('g', [
      ⟨c!"g", [c!"5"], [c!"5"], [c!"5"]⟩]),
    ('b', [
      ⟨c!"b", [c!"7"], [c!"7"], [c!"7"]⟩])]
  foldingRules := [
    ('ź', 'z'),
    ('ż', 'z'),
    ('ś', 's'),
    ('ł', 'l'),
    ('ć', 'c'),
    ('ÿ', 'y'),
    ('þ', 'b'),
    ('ý', 'y'),
    ('û', 'u'),
    ('ú', 'u'),
    ('ù', 'u'),
    ('ø', 'o'),
    ('ö', 'o'),
    ('õ', 'o'),
    ('ô', 'o'),
    ('ó', 'o'),
    ('ò', 'o'),
    ('ñ', 'n'),
    ('ð', 'd'),
    ('ï', 'i'),
    ('î', 'i'),
    ('í', 'i'),
    ('ì', 'i'),
    ('ë', 'e'),
    ('ê', 'e'),
    ('é', 'e'),
    ('è', 'e'),
    ('ç', 'c'),
    ('æ', 'a'),
    ('å', 'a'),
    ('ä', 'a'),
    ('ã', 'a'),
    ('â', 'a'),
    ('á', 'a'),
    ('à', 'a'),
    ('ß', 's')]

end DaitchMokotoff
end Verif
