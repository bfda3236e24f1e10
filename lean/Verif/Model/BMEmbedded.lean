import Verif.Model.BMEngine
/-!
# The embedded rules of Beider-Morse: `rules/bm/*.txt`

Generated from the files, line by line.
-/

namespace Verif
namespace BM

/-- The contents of `rules/bm/ash_exact_approx_common.txt`, `ASH_EXACT_APPROX_COMMON` (rule.rs:441). -/
def ashExactApproxCommonFile : Str := [
  c!"/*\n",
  c!" * Licensed to the Apache Software Foundation (ASF) under one or more\n",
  c!" * contributor license agreements.  See the NOTICE file distributed with\n",
  c!" * this work for additional information regarding copyright ownership.\n",
  c!" * The ASF licenses this file to You under the Apache License, Version 2.0\n",
  c!" * (the \"License\"); you may not use this file except in compliance with\n",
  c!" * the License.  You may obtain a copy of the License at\n",
  c!" *\n",
  c!" *      http://www.apache.org/licenses/LICENSE-2.0\n",
  c!" *\n",
  c!" * Unless required by applicable law or agreed to in writing, software\n",
  c!" * distributed under the License is distributed on an \"AS IS\" BASIS,\n",
  c!" * WITHOUT WARRANTIES OR CONDITIONS OF ANY KIND, either express or implied.\n",
  c!" * See the License for the specific language governing permissions and\n",
  c!" * limitations under the License.\n",
  c!" */\n",
  c!"\n",
  c!"// Ashkenazic\n",
  c!"    \n",
  c!"\"h\" \"\" \"$\" \"\"\n",
  c!"// VOICED - UNVOICED CONSONANTS\n",
  c!"\"b\" \"\" \"[fktSs]\" \"p\"\n",
  c!"\"b\" \"\" \"p\" \"\"\n",
  c!"\"b\" \"\" \"$\" \"p\"\n",
  c!"\"p\" \"\" \"[gdZz]\" \"b\"\n",
  c!"\"p\" \"\" \"b\" \"\"\n",
  c!"    \n",
  c!"\"v\" \"\" \"[pktSs]\" \"f\"\n",
  c!"\"v\" \"\" \"f\" \"\"\n",
  c!"\"v\" \"\" \"$\" \"f\"\n",
  c!"\"f\" \"\" \"[bgdZz]\" \"v\"\n",
  c!"\"f\" \"\" \"v\" \"\"\n",
  c!"    \n",
  c!"\"g\" \"\" \"[pftSs]\" \"k\"\n",
  c!"\"g\" \"\" \"k\" \"\"\n",
  c!"\"g\" \"\" \"$\" \"k\"\n",
  c!"\"k\" \"\" \"[bdZz]\" \"g\"\n",
  c!"\"k\" \"\" \"g\" \"\"\n",
  c!"    \n",
  c!"\"d\" \"\" \"[pfkSs]\" \"t\"\n",
  c!"\"d\" \"\" \"t\" \"\"\n",
  c!"\"d\" \"\" \"$\" \"t\"\n",
  c!"\"t\" \"\" \"[bgZz]\" \"d\"\n",
  c!"\"t\" \"\" \"d\" \"\"\n",
  c!"\n",
  c!"\"s\" \"\" \"dZ\" \"\"\n",
  c!"\"s\" \"\" \"tS\" \"\"\n",
  c!"    \n",
  c!"\"z\" \"\" \"[pfkSt]\" \"s\"\n",
  c!"\"z\" \"\" \"[sSzZ]\" \"\"\n",
  c!"\"s\" \"\" \"[sSzZ]\" \"\"\n",
  c!"\"Z\" \"\" \"[sSzZ]\" \"\"\n",
  c!"\"S\" \"\" \"[sSzZ]\" \"\"\n",
  c!"       \n",
  c!"// SIMPLIFICATION OF CONSONANT CLUSTERS\n",
  c!"\n",
  c!"\"jnm\" \"\" \"\" \"jm\"\n",
  c!"\n",
  c!"// DOUBLE --> SINGLE\n",
  c!"\n",
  c!"\"ji\" \"^\" \"\" \"i\"\n",
  c!"\"jI\" \"^\" \"\" \"I\"\n",
  c!"    \n",
  c!"\"a\" \"\" \"[aAB]\" \"\" \n",
  c!"\"a\" \"[AB]\" \"\" \"\" \n",
  c!"\"A\" \"\" \"A\" \"\"\n",
  c!"\"B\" \"\" \"B\" \"\"\n",
  c!"    \n",
  c!"\"b\" \"\" \"b\" \"\"\n",
  c!"\"d\" \"\" \"d\" \"\"\n",
  c!"\"f\" \"\" \"f\" \"\"\n",
  c!"\"g\" \"\" \"g\" \"\"\n",
  c!"\"k\" \"\" \"k\" \"\"\n",
  c!"\"l\" \"\" \"l\" \"\"\n",
  c!"\"m\" \"\" \"m\" \"\"\n",
  c!"\"n\" \"\" \"n\" \"\"\n",
  c!"\"p\" \"\" \"p\" \"\"\n",
  c!"\"r\" \"\" \"r\" \"\"\n",
  c!"\"t\" \"\" \"t\" \"\"\n",
  c!"\"v\" \"\" \"v\" \"\"\n",
  c!"\"z\" \"\" \"z\" \"\"\n",
  c!"    "].flatten

/-- Lines 1 to 100 of `rules/bm/ash_approx_any.txt`. -/
def ashApproxAnyFile1 : Str := [
  c!"/*\n",
  c!" * Licensed to the Apache Software Foundation (ASF) under one or more\n",
  c!" * contributor license agreements.  See the NOTICE file distributed with\n",
  c!" * this work for additional information regarding copyright ownership.\n",
  c!" * The ASF licenses this file to You under the Apache License, Version 2.0\n",
  c!" * (the \"License\"); you may not use this file except in compliance with\n",
  c!" * the License.  You may obtain a copy of the License at\n",
  c!" *\n",
  c!" *      http://www.apache.org/licenses/LICENSE-2.0\n",
  c!" *\n",
  c!" * Unless required by applicable law or agreed to in writing, software\n",
  c!" * distributed under the License is distributed on an \"AS IS\" BASIS,\n",
  c!" * WITHOUT WARRANTIES OR CONDITIONS OF ANY KIND, either express or implied.\n",
  c!" * See the License for the specific language governing permissions and\n",
  c!" * limitations under the License.\n",
  c!" */\n",
  c!"\n",
  c!"// ASHKENAZIC\n",
  c!"\n",
  c!"// A, E, I, O, P, U should create variants, but a, e, i, o, u should not create any new variant\n",
  c!"// Q = ü ; Y = ä = ö\n",
  c!"// H = initial \"H\" in German/English\n",
  c!"\n",
  c!"// CONSONANTS\n",
  c!"\"b\" \"\" \"\" \"(b|v[spanish])\"\n",
  c!"\"J\"  \"\"  \"\"  \"z\" // Argentina Spanish: \"ll\" = /Z/, but approximately /Z/ = /z/\n",
  c!"    \n",
  c!"// VOWELS\n",
  c!"// \"ALL\" DIPHTHONGS are interchangeable BETWEEN THEM and with monophthongs of which they are composed (\"D\" means \"diphthong\")\n",
  c!"//  {a,o} are totally interchangeable if non-stressed; in German \"a/o\" can actually be from \"ä/ö\" (that are equivalent to \"e\")\n",
  c!"//  {i,e} are interchangeable if non-stressed, while in German \"u\" can actually be from \"ü\" (that is equivalent to \"i\")\n",
  c!"    \n",
  c!"\"aiB\" \"\" \"[bp]\" \"(D|Dm)\"\n",
  c!"\"AiB\" \"\" \"[bp]\" \"(D|Dm)\"\n",
  c!"\"oiB\" \"\" \"[bp]\" \"(D|Dm)\"\n",
  c!"\"OiB\" \"\" \"[bp]\" \"(D|Dm)\"\n",
  c!"\"uiB\" \"\" \"[bp]\" \"(D|Dm)\"\n",
  c!"\"UiB\" \"\" \"[bp]\" \"(D|Dm)\"\n",
  c!"\"eiB\" \"\" \"[bp]\" \"(D|Dm)\"\n",
  c!"\"EiB\" \"\" \"[bp]\" \"(D|Dm)\"\n",
  c!"\"iiB\" \"\" \"[bp]\" \"(D|Dm)\"\n",
  c!"\"IiB\" \"\" \"[bp]\" \"(D|Dm)\"\n",
  c!"    \n",
  c!"\"aiB\" \"\" \"[dgkstvz]\" \"(D|Dn)\"\n",
  c!"\"AiB\" \"\" \"[dgkstvz]\" \"(D|Dn)\"\n",
  c!"\"oiB\" \"\" \"[dgkstvz]\" \"(D|Dn)\"\n",
  c!"\"OiB\" \"\" \"[dgkstvz]\" \"(D|Dn)\"\n",
  c!"\"uiB\" \"\" \"[dgkstvz]\" \"(D|Dn)\"\n",
  c!"\"UiB\" \"\" \"[dgkstvz]\" \"(D|Dn)\"\n",
  c!"\"eiB\" \"\" \"[dgkstvz]\" \"(D|Dn)\"\n",
  c!"\"EiB\" \"\" \"[dgkstvz]\" \"(D|Dn)\"\n",
  c!"\"iiB\" \"\" \"[dgkstvz]\" \"(D|Dn)\"\n",
  c!"\"IiB\" \"\" \"[dgkstvz]\" \"(D|Dn)\"\n",
  c!"      \n",
  c!"\"B\" \"\" \"[bp]\" \"(o|om[polish]|im[polish])\"\n",
  c!"\"B\" \"\" \"[dgkstvz]\" \"(a|o|on[polish]|in[polish])\"\n",
  c!"\"B\"  \"\"  \"\"  \"(a|o)\"\n",
  c!"    \n",
  c!"\"aiF\" \"\" \"[bp]\" \"(D|Dm)\"\n",
  c!"\"AiF\" \"\" \"[bp]\" \"(D|Dm)\"\n",
  c!"\"oiF\" \"\" \"[bp]\" \"(D|Dm)\"\n",
  c!"\"OiF\" \"\" \"[bp]\" \"(D|Dm)\"\n",
  c!"\"uiF\" \"\" \"[bp]\" \"(D|Dm)\"\n",
  c!"\"UiF\" \"\" \"[bp]\" \"(D|Dm)\"\n",
  c!"\"eiF\" \"\" \"[bp]\" \"(D|Dm)\"\n",
  c!"\"EiF\" \"\" \"[bp]\" \"(D|Dm)\"\n",
  c!"\"iiF\" \"\" \"[bp]\" \"(D|Dm)\"\n",
  c!"\"IiF\" \"\" \"[bp]\" \"(D|Dm)\"\n",
  c!"        \n",
  c!"\"aiF\" \"\" \"[dgkstvz]\" \"(D|Dn)\"\n",
  c!"\"AiF\" \"\" \"[dgkstvz]\" \"(D|Dn)\"\n",
  c!"\"oiF\" \"\" \"[dgkstvz]\" \"(D|Dn)\"\n",
  c!"\"OiF\" \"\" \"[dgkstvz]\" \"(D|Dn)\"\n",
  c!"\"uiF\" \"\" \"[dgkstvz]\" \"(D|Dn)\"\n",
  c!"\"UiF\" \"\" \"[dgkstvz]\" \"(D|Dn)\"\n",
  c!"\"eiF\" \"\" \"[dgkstvz]\" \"(D|Dn)\"\n",
  c!"\"EiF\" \"\" \"[dgkstvz]\" \"(D|Dn)\"\n",
  c!"\"iiF\" \"\" \"[dgkstvz]\" \"(D|Dn)\"\n",
  c!"\"IiF\" \"\" \"[dgkstvz]\" \"(D|Dn)\"\n",
  c!"            \n",
  c!"\"F\" \"\" \"[bp]\" \"(i|im[polish]|om[polish])\"\n",
  c!"\"F\" \"\" \"[dgkstvz]\" \"(i|in[polish]|on[polish])\"\n",
  c!"\"F\"  \"\"  \"\"  \"i\"\n",
  c!"        \n",
  c!"\"P\"  \"\"  \"\"  \"(o|u)\"\n",
  c!"        \n",
  c!"\"I\"  \"[aeiouAEIBFOUQY]\"  \"\"  \"i\"\n",
  c!"\"I\" \"\" \"[^aeiouAEBFIOU]e\" \"(Q[german]|i|D[english])\"  // \"line\"\n",
  c!"\"I\"  \"\"  \"$\"  \"i\"\n",
  c!"\"I\"  \"\"  \"[^k]$\"  \"i\"\n",
  c!"\"Ik\"  \"[lr]\"  \"$\"  \"(ik|Qk[german])\"\n",
  c!"\"Ik\"  \"\"  \"$\"  \"ik\"\n",
  c!"\"sIts\"  \"\"  \"$\"  \"(sits|sQts[german])\"\n",
  c!"\"Its\"  \"\"  \"$\"  \"its\"\n",
  c!"\"I\"  \"\"  \"\"  \"(Q[german]|i)\"\n",
  c!"   \n",
  c!"\"lE\" \"[bdfgkmnprsStvzZ]\" \"$\" \"(li|il[english])\"  // Apple < Appel\n",
  c!"\"lE\" \"[bdfgkmnprsStvzZ]\" \"\" \"(li|il[english]|lY[german])\"  // Applebaum < Appelbaum\n",
  c!"    \n",
  c!"\"au\" \"\" \"\" \"(D|a|u)\"\n"].flatten

/-- Lines 101 to 155 of `rules/bm/ash_approx_any.txt`. -/
def ashApproxAnyFile2 : Str := [
  c!"\"ou\" \"\" \"\" \"(D|o|u)\"\n",
  c!"    \n",
  c!"\"ai\" \"\" \"\" \"(D|a|i)\"\n",
  c!"\"Ai\" \"\" \"\" \"(D|a|i)\"\n",
  c!"\"oi\" \"\" \"\" \"(D|o|i)\"\n",
  c!"\"Oi\" \"\" \"\" \"(D|o|i)\"\n",
  c!"\"ui\" \"\" \"\" \"(D|u|i)\"\n",
  c!"\"Ui\" \"\" \"\" \"(D|u|i)\"\n",
  c!"\"ei\" \"\" \"\" \"(D|i)\"\n",
  c!"\"Ei\" \"\" \"\" \"(D|i)\"\n",
  c!"    \n",
  c!"\"iA\" \"\" \"$\" \"(ia|io)\"\n",
  c!"\"iA\" \"\" \"\" \"(ia|io|iY[german])\"\n",
  c!"\"A\" \"\" \"[^aeiouAEBFIOU]e\" \"(a|o|Y[german]|D[english])\" // \"plane\"\n",
  c!"        \n",
  c!"\"E\" \"i[^aeiouAEIOU]\" \"\" \"(i|Y[german]|[english])\" // Wineberg (vineberg/vajneberg) --> vajnberg\n",
  c!"\"E\" \"a[^aeiouAEIOU]\" \"\" \"(i|Y[german]|[english])\" //  Shaneberg (shaneberg/shejneberg) --> shejnberg\n",
  c!"        \n",
  c!"\"e\"  \"\"  \"[fklmnprstv]$\"  \"i\"\n",
  c!"\"e\"  \"\"  \"ts$\"  \"i\"\n",
  c!"\"e\"  \"\"  \"$\"  \"i\"\n",
  c!"\"e\"  \"[DaoiuAOIUQY]\"  \"\"  \"i\"\n",
  c!"\"e\"  \"\"  \"[aoAOQY]\"  \"i\"\n",
  c!"\"e\"  \"\"  \"\"  \"(i|Y[german])\"\n",
  c!"    \n",
  c!"\"E\"  \"\"  \"[fklmnprst]$\"  \"i\"\n",
  c!"\"E\"  \"\"  \"ts$\"  \"i\"\n",
  c!"\"E\"  \"\"  \"$\"  \"i\"\n",
  c!"\"E\"  \"[DaoiuAOIUQY]\"  \"\"  \"i\"\n",
  c!"\"E\"  \"\"  \"[aoAOQY]\"  \"i\"\n",
  c!"\"E\"  \"\"  \"\"  \"(i|Y[german])\"\n",
  c!"        \n",
  c!"\"a\"  \"\"  \"\"  \"(a|o)\"\n",
  c!"    \n",
  c!"\"O\"  \"\"  \"[fklmnprstv]$\"  \"o\"\n",
  c!"\"O\"  \"\"  \"ts$\"  \"o\"\n",
  c!"\"O\"  \"\"  \"$\"  \"o\"\n",
  c!"\"O\"  \"[oeiuQY]\"  \"\"  \"o\"\n",
  c!"\"O\"  \"\"  \"\"  \"(o|Y[german])\"\n",
  c!"    \n",
  c!"\"A\"  \"\"  \"[fklmnprst]$\"  \"(a|o)\"\n",
  c!"\"A\"  \"\"  \"ts$\"  \"(a|o)\"\n",
  c!"\"A\"  \"\"  \"$\"  \"(a|o)\"\n",
  c!"\"A\"  \"[oeiuQY]\"  \"\"  \"(a|o)\"\n",
  c!"\"A\"  \"\"  \"\"  \"(a|o|Y[german])\"\n",
  c!"\n",
  c!"\"U\"  \"\"  \"$\"  \"u\"\n",
  c!"\"U\"  \"[DoiuQY]\"  \"\"  \"u\"\n",
  c!"\"U\"  \"\"  \"[^k]$\"  \"u\"\n",
  c!"\"Uk\"  \"[lr]\"  \"$\"  \"(uk|Qk[german])\"\n",
  c!"\"Uk\"  \"\"  \"$\"  \"uk\"\n",
  c!"  \n",
  c!"\"sUts\"  \"\"  \"$\"  \"(suts|sQts[german])\"\n",
  c!"\"Uts\"  \"\"  \"$\"  \"uts\"\n",
  c!"\"U\"  \"\"  \"\"  \"(u|Q[german])\"\n"].flatten

/-- The contents of `rules/bm/ash_approx_any.txt`, `ASH_APPROX_ANY` (rule.rs:443). -/
def ashApproxAnyFile : Str := ashApproxAnyFile1 ++ ashApproxAnyFile2

/-- Lines 1 to 100 of `rules/bm/ash_approx_common.txt`. -/
def ashApproxCommonFile1 : Str := [
  c!"/*\n",
  c!" * Licensed to the Apache Software Foundation (ASF) under one or more\n",
  c!" * contributor license agreements.  See the NOTICE file distributed with\n",
  c!" * this work for additional information regarding copyright ownership.\n",
  c!" * The ASF licenses this file to You under the Apache License, Version 2.0\n",
  c!" * (the \"License\"); you may not use this file except in compliance with\n",
  c!" * the License.  You may obtain a copy of the License at\n",
  c!" *\n",
  c!" *      http://www.apache.org/licenses/LICENSE-2.0\n",
  c!" *\n",
  c!" * Unless required by applicable law or agreed to in writing, software\n",
  c!" * distributed under the License is distributed on an \"AS IS\" BASIS,\n",
  c!" * WITHOUT WARRANTIES OR CONDITIONS OF ANY KIND, either express or implied.\n",
  c!" * See the License for the specific language governing permissions and\n",
  c!" * limitations under the License.\n",
  c!" */\n",
  c!"\n",
  c!"#include ash_exact_approx_common\n",
  c!"\n",
  c!"// REGRESSIVE ASSIMILATION OF CONSONANTS\n",
  c!"\"n\"\t\"\"\t\"[bp]\"\t\"m\" \n",
  c!"\n",
  c!"// PECULIARITY OF \"h\" \n",
  c!"\"h\"\t\"\"\t\"\"\t\"\" \n",
  c!"\"H\"\t\"\"\t\"\"\t\"(x|)\" \n",
  c!"\n",
  c!"// POLISH OGONEK IMPOSSIBLE\n",
  c!"\"F\" \"\" \"[bdgkpstvzZ]h\" \"e\"\n",
  c!"\"F\" \"\" \"[bdgkpstvzZ]x\" \"e\"\n",
  c!"\"B\" \"\" \"[bdgkpstvzZ]h\" \"a\"\n",
  c!"\"B\" \"\" \"[bdgkpstvzZ]x\" \"a\"\n",
  c!"\n",
  c!"// \"e\" and \"i\" ARE TO BE OMITTED BEFORE (SYLLABIC) n & l: Halperin=Halpern; Frankel = Frankl, Finkelstein = Finklstein\n",
  c!"\"e\" \"[bdfgklmnprsStvzZ]\" \"[ln]$\" \"\"\n",
  c!"\"i\" \"[bdfgklmnprsStvzZ]\" \"[ln]$\" \"\"\n",
  c!"\"E\" \"[bdfgklmnprsStvzZ]\" \"[ln]$\" \"\"\n",
  c!"\"I\" \"[bdfgklmnprsStvzZ]\" \"[ln]$\" \"\"\n",
  c!"\"F\" \"[bdfgklmnprsStvzZ]\" \"[ln]$\" \"\"\n",
  c!"\"Q\" \"[bdfgklmnprsStvzZ]\" \"[ln]$\" \"\"\n",
  c!"\"Y\" \"[bdfgklmnprsStvzZ]\" \"[ln]$\" \"\"\n",
  c!"\n",
  c!"\"e\" \"[bdfgklmnprsStvzZ]\" \"[ln][bdfgklmnprsStvzZ]\" \"\"\n",
  c!"\"i\" \"[bdfgklmnprsStvzZ]\" \"[ln][bdfgklmnprsStvzZ]\" \"\"\n",
  c!"\"E\" \"[bdfgklmnprsStvzZ]\" \"[ln][bdfgklmnprsStvzZ]\" \"\"\n",
  c!"\"I\" \"[bdfgklmnprsStvzZ]\" \"[ln][bdfgklmnprsStvzZ]\" \"\"\n",
  c!"\"F\" \"[bdfgklmnprsStvzZ]\" \"[ln][bdfgklmnprsStvzZ]\" \"\"\n",
  c!"\"Q\" \"[bdfgklmnprsStvzZ]\" \"[ln][bdfgklmnprsStvzZ]\" \"\"\n",
  c!"\"Y\" \"[bdfgklmnprsStvzZ]\" \"[ln][bdfgklmnprsStvzZ]\" \"\"\n",
  c!"\n",
  c!"\"lEs\"\t\"\"\t\"\"\t\"(lEs|lz)\"  // Applebaum < Appelbaum (English + blend English-something forms as Finklestein)\n",
  c!"\"lE\"\t\"[bdfgkmnprStvzZ]\"\t\"\"\t\"(lE|l)\"  // Applebaum < Appelbaum (English + blend English-something forms as Finklestein)\n",
  c!"\n",
  c!"// SIMPLIFICATION: (TRIPHTHONGS & DIPHTHONGS) -> ONE GENERIC DIPHTHONG \"D\"\n",
  c!"\"aue\"\t\"\"\t\"\"\t\"D\"\n",
  c!"\"oue\"\t\"\"\t\"\"\t\"D\"\n",
  c!"    \n",
  c!"\"AvE\"\t\"\"\t\"\"\t\"(D|AvE)\"\n",
  c!"\"Ave\"\t\"\"\t\"\"\t\"(D|Ave)\"\n",
  c!"\"avE\"\t\"\"\t\"\"\t\"(D|avE)\"\n",
  c!"\"ave\"\t\"\"\t\"\"\t\"(D|ave)\"\n",
  c!"    \n",
  c!"\"OvE\"\t\"\"\t\"\"\t\"(D|OvE)\"\n",
  c!"\"Ove\"\t\"\"\t\"\"\t\"(D|Ove)\"\n",
  c!"\"ovE\"\t\"\"\t\"\"\t\"(D|ovE)\"\n",
  c!"\"ove\"\t\"\"\t\"\"\t\"(D|ove)\"\n",
  c!"    \n",
  c!"\"ea\"\t\"\"\t\"\"\t\"(D|ea)\"\n",
  c!"\"EA\"\t\"\"\t\"\"\t\"(D|EA)\"\n",
  c!"\"Ea\"\t\"\"\t\"\"\t\"(D|Ea)\"\n",
  c!"\"eA\"\t\"\"\t\"\"\t\"(D|eA)\"\n",
  c!"             \n",
  c!"\"aji\"\t\"\"\t\"\"\t\"D\"\n",
  c!"\"ajI\"\t\"\"\t\"\"\t\"D\"\n",
  c!"\"aje\"\t\"\"\t\"\"\t\"D\"\n",
  c!"\"ajE\"\t\"\"\t\"\"\t\"D\"\n",
  c!"    \n",
  c!"\"Aji\"\t\"\"\t\"\"\t\"D\"\n",
  c!"\"AjI\"\t\"\"\t\"\"\t\"D\"\n",
  c!"\"Aje\"\t\"\"\t\"\"\t\"D\"\n",
  c!"\"AjE\"\t\"\"\t\"\"\t\"D\"\n",
  c!"    \n",
  c!"\"oji\"\t\"\"\t\"\"\t\"D\"\n",
  c!"\"ojI\"\t\"\"\t\"\"\t\"D\"\n",
  c!"\"oje\"\t\"\"\t\"\"\t\"D\"\n",
  c!"\"ojE\"\t\"\"\t\"\"\t\"D\"\n",
  c!"    \n",
  c!"\"Oji\"\t\"\"\t\"\"\t\"D\"\n",
  c!"\"OjI\"\t\"\"\t\"\"\t\"D\"\n",
  c!"\"Oje\"\t\"\"\t\"\"\t\"D\"\n",
  c!"\"OjE\"\t\"\"\t\"\"\t\"D\"\n",
  c!"    \n",
  c!"\"eji\"\t\"\"\t\"\"\t\"D\"\n",
  c!"\"ejI\"\t\"\"\t\"\"\t\"D\"\n",
  c!"\"eje\"\t\"\"\t\"\"\t\"D\"\n",
  c!"\"ejE\"\t\"\"\t\"\"\t\"D\"\n",
  c!"    \n",
  c!"\"Eji\"\t\"\"\t\"\"\t\"D\"\n",
  c!"\"EjI\"\t\"\"\t\"\"\t\"D\"\n",
  c!"\"Eje\"\t\"\"\t\"\"\t\"D\"\n",
  c!"\"EjE\"\t\"\"\t\"\"\t\"D\"\n"].flatten

/-- Lines 101 to 200 of `rules/bm/ash_approx_common.txt`. -/
def ashApproxCommonFile2 : Str := [
  c!"    \n",
  c!"\"uji\"\t\"\"\t\"\"\t\"D\"\n",
  c!"\"ujI\"\t\"\"\t\"\"\t\"D\"\n",
  c!"\"uje\"\t\"\"\t\"\"\t\"D\"\n",
  c!"\"ujE\"\t\"\"\t\"\"\t\"D\"\n",
  c!"    \n",
  c!"\"Uji\"\t\"\"\t\"\"\t\"D\"\n",
  c!"\"UjI\"\t\"\"\t\"\"\t\"D\"\n",
  c!"\"Uje\"\t\"\"\t\"\"\t\"D\"\n",
  c!"\"UjE\"\t\"\"\t\"\"\t\"D\"\n",
  c!"        \n",
  c!"\"iji\"\t\"\"\t\"\"\t\"D\"\n",
  c!"\"ijI\"\t\"\"\t\"\"\t\"D\"\n",
  c!"\"ije\"\t\"\"\t\"\"\t\"D\"\n",
  c!"\"ijE\"\t\"\"\t\"\"\t\"D\"\n",
  c!"    \n",
  c!"\"Iji\"\t\"\"\t\"\"\t\"D\"\n",
  c!"\"IjI\"\t\"\"\t\"\"\t\"D\"\n",
  c!"\"Ije\"\t\"\"\t\"\"\t\"D\"\n",
  c!"\"IjE\"\t\"\"\t\"\"\t\"D\"\n",
  c!"                         \n",
  c!"\"aja\"\t\"\"\t\"\"\t\"D\"\n",
  c!"\"ajA\"\t\"\"\t\"\"\t\"D\"\n",
  c!"\"ajo\"\t\"\"\t\"\"\t\"D\"\n",
  c!"\"ajO\"\t\"\"\t\"\"\t\"D\"\n",
  c!"\"aju\"\t\"\"\t\"\"\t\"D\"\n",
  c!"\"ajU\"\t\"\"\t\"\"\t\"D\"\n",
  c!"    \n",
  c!"\"Aja\"\t\"\"\t\"\"\t\"D\"\n",
  c!"\"AjA\"\t\"\"\t\"\"\t\"D\"\n",
  c!"\"Ajo\"\t\"\"\t\"\"\t\"D\"\n",
  c!"\"AjO\"\t\"\"\t\"\"\t\"D\"\n",
  c!"\"Aju\"\t\"\"\t\"\"\t\"D\"\n",
  c!"\"AjU\"\t\"\"\t\"\"\t\"D\"\n",
  c!"    \n",
  c!"\"oja\"\t\"\"\t\"\"\t\"D\"\n",
  c!"\"ojA\"\t\"\"\t\"\"\t\"D\"\n",
  c!"\"ojo\"\t\"\"\t\"\"\t\"D\"\n",
  c!"\"ojO\"\t\"\"\t\"\"\t\"D\"\n",
  c!"\"Aju\"\t\"\"\t\"\"\t\"D\"\n",
  c!"\"AjU\"\t\"\"\t\"\"\t\"D\"\n",
  c!"    \n",
  c!"\"Oja\"\t\"\"\t\"\"\t\"D\"\n",
  c!"\"OjA\"\t\"\"\t\"\"\t\"D\"\n",
  c!"\"Ojo\"\t\"\"\t\"\"\t\"D\"\n",
  c!"\"OjO\"\t\"\"\t\"\"\t\"D\"\n",
  c!"\"Aju\"\t\"\"\t\"\"\t\"D\"\n",
  c!"\"AjU\"\t\"\"\t\"\"\t\"D\"\n",
  c!"    \n",
  c!"\"eja\"\t\"\"\t\"\"\t\"D\"\n",
  c!"\"ejA\"\t\"\"\t\"\"\t\"D\"\n",
  c!"\"ejo\"\t\"\"\t\"\"\t\"D\"\n",
  c!"\"ejO\"\t\"\"\t\"\"\t\"D\"\n",
  c!"\"Aju\"\t\"\"\t\"\"\t\"D\"\n",
  c!"\"AjU\"\t\"\"\t\"\"\t\"D\"\n",
  c!"    \n",
  c!"\"Eja\"\t\"\"\t\"\"\t\"D\"\n",
  c!"\"EjA\"\t\"\"\t\"\"\t\"D\"\n",
  c!"\"Ejo\"\t\"\"\t\"\"\t\"D\"\n",
  c!"\"EjO\"\t\"\"\t\"\"\t\"D\"\n",
  c!"\"Aju\"\t\"\"\t\"\"\t\"D\"\n",
  c!"\"AjU\"\t\"\"\t\"\"\t\"D\"\n",
  c!"    \n",
  c!"\"uja\"\t\"\"\t\"\"\t\"D\"\n",
  c!"\"ujA\"\t\"\"\t\"\"\t\"D\"\n",
  c!"\"ujo\"\t\"\"\t\"\"\t\"D\"\n",
  c!"\"ujO\"\t\"\"\t\"\"\t\"D\"\n",
  c!"\"Aju\"\t\"\"\t\"\"\t\"D\"\n",
  c!"\"AjU\"\t\"\"\t\"\"\t\"D\"\n",
  c!"        \n",
  c!"\"Uja\"\t\"\"\t\"\"\t\"D\"\n",
  c!"\"UjA\"\t\"\"\t\"\"\t\"D\"\n",
  c!"\"Ujo\"\t\"\"\t\"\"\t\"D\"\n",
  c!"\"UjO\"\t\"\"\t\"\"\t\"D\"\n",
  c!"\"Aju\"\t\"\"\t\"\"\t\"D\"\n",
  c!"\"AjU\"\t\"\"\t\"\"\t\"D\"\n",
  c!"        \n",
  c!"\"ija\"\t\"\"\t\"\"\t\"D\"\n",
  c!"\"ijA\"\t\"\"\t\"\"\t\"D\"\n",
  c!"\"ijo\"\t\"\"\t\"\"\t\"D\"\n",
  c!"\"ijO\"\t\"\"\t\"\"\t\"D\"\n",
  c!"\"Aju\"\t\"\"\t\"\"\t\"D\"\n",
  c!"\"AjU\"\t\"\"\t\"\"\t\"D\"\n",
  c!"    \n",
  c!"\"Ija\"\t\"\"\t\"\"\t\"D\"\n",
  c!"\"IjA\"\t\"\"\t\"\"\t\"D\"\n",
  c!"\"Ijo\"\t\"\"\t\"\"\t\"D\"\n",
  c!"\"IjO\"\t\"\"\t\"\"\t\"D\"                         \n",
  c!"\"Aju\"\t\"\"\t\"\"\t\"D\"\n",
  c!"\"AjU\"\t\"\"\t\"\"\t\"D\"\n",
  c!"                         \n",
  c!"\"j\"\t\"\"\t\"\"\t\"i\"                         \n",
  c!"                         \n",
  c!"// lander = lender = länder \n",
  c!"\"lYndEr\"\t\"\"\t\"$\"\t\"lYnder\" \n",
  c!"\"lander\"\t\"\"\t\"$\"\t\"lYnder\" \n",
  c!"\"lAndEr\"\t\"\"\t\"$\"\t\"lYnder\" \n",
  c!"\"lAnder\"\t\"\"\t\"$\"\t\"lYnder\" \n",
  c!"\"landEr\"\t\"\"\t\"$\"\t\"lYnder\" \n",
  c!"\"lender\"\t\"\"\t\"$\"\t\"lYnder\" \n"].flatten

/-- Lines 201 to 225 of `rules/bm/ash_approx_common.txt`. -/
def ashApproxCommonFile3 : Str := [
  c!"\"lEndEr\"\t\"\"\t\"$\"\t\"lYnder\" \n",
  c!"\"lendEr\"\t\"\"\t\"$\"\t\"lYnder\" \n",
  c!"\"lEnder\"\t\"\"\t\"$\"\t\"lYnder\" \n",
  c!"\n",
  c!"// burg = berg\n",
  c!"\"bUrk\" \"\" \"$\" \"(burk|berk)\"\n",
  c!"\"burk\" \"\" \"$\" \"(burk|berk)\"\n",
  c!"\"bUrg\" \"\" \"$\" \"(burk|berk)\"\n",
  c!"\"burg\" \"\" \"$\" \"(burk|berk)\"\n",
  c!"\n",
  c!"// CONSONANTS {z & Z; s & S} are approximately interchangeable\n",
  c!"\"s\" \"\" \"[rmnl]\" \"z\"\n",
  c!"\"S\" \"\" \"[rmnl]\" \"z\"\n",
  c!"\"s\" \"[rmnl]\" \"\" \"z\"\n",
  c!"\"S\" \"[rmnl]\" \"\" \"z\"\n",
  c!"    \n",
  c!"\"dS\" \"\" \"$\" \"S\"\n",
  c!"\"dZ\" \"\" \"$\" \"S\"\n",
  c!"\"Z\" \"\" \"$\" \"S\"\n",
  c!"\"S\" \"\" \"$\" \"(S|s)\"\n",
  c!"\"z\" \"\" \"$\" \"(S|s)\"\n",
  c!"    \n",
  c!"\"S\" \"\" \"\" \"s\"\n",
  c!"\"dZ\" \"\" \"\" \"z\"\n",
  c!"\"Z\" \"\" \"\" \"z\""].flatten

/-- The contents of `rules/bm/ash_approx_common.txt`, `ASH_APPROX_COMMON` (rule.rs:444). -/
def ashApproxCommonFile : Str := ashApproxCommonFile1 ++ ashApproxCommonFile2 ++ ashApproxCommonFile3

/-- The contents of `rules/bm/ash_exact_any.txt`, `ASH_EXACT_ANY` (rule.rs:445). -/
def ashExactAnyFile : Str := [
  c!"/*\n",
  c!" * Licensed to the Apache Software Foundation (ASF) under one or more\n",
  c!" * contributor license agreements.  See the NOTICE file distributed with\n",
  c!" * this work for additional information regarding copyright ownership.\n",
  c!" * The ASF licenses this file to You under the Apache License, Version 2.0\n",
  c!" * (the \"License\"); you may not use this file except in compliance with\n",
  c!" * the License.  You may obtain a copy of the License at\n",
  c!" *\n",
  c!" *      http://www.apache.org/licenses/LICENSE-2.0\n",
  c!" *\n",
  c!" * Unless required by applicable law or agreed to in writing, software\n",
  c!" * distributed under the License is distributed on an \"AS IS\" BASIS,\n",
  c!" * WITHOUT WARRANTIES OR CONDITIONS OF ANY KIND, either express or implied.\n",
  c!" * See the License for the specific language governing permissions and\n",
  c!" * limitations under the License.\n",
  c!" */\n",
  c!"\n",
  c!"// These rules are applied after the word has been transliterated into the phonetic alphabet\n",
  c!"// These rules are substitution rules within the phonetic character space rather than mapping rules\n",
  c!"\n",
  c!"// format of each entry rule in the table\n",
  c!"//   (pattern, left context, right context, phonetic)\n",
  c!"// where\n",
  c!"//   pattern is a sequence of characters that might appear after a word has been transliterated into phonetic alphabet\n",
  c!"//   left context is the context that precedes the pattern\n",
  c!"//   right context is the context that follows the pattern\n",
  c!"//   phonetic is the result that this rule generates\n",
  c!"//\n",
  c!"// note that both left context and right context can be regular expressions\n",
  c!"// ex: left context of ^ would mean start of word\n",
  c!"//     right context of $ means end of word\n",
  c!"//\n",
  c!"// match occurs if all of the following are true:\n",
  c!"//   portion of word matches the pattern\n",
  c!"//   that portion satisfies the context\n",
  c!"\n",
  c!"// A, E, I, O, P, U should create variants, but a, e, i, o, u should not create any new variant\n",
  c!"// Q = ü ; Y = ä = ö\n",
  c!"\n",
  c!"\n",
  c!"\"A\" \"\" \"\" \"a\"\n",
  c!"\"B\" \"\" \"\" \"a\"\n",
  c!"\n",
  c!"\"E\" \"\" \"\" \"e\"\n",
  c!"\"F\" \"\" \"\" \"e\"\n",
  c!"\n",
  c!"\"I\" \"\" \"\" \"i\"\n",
  c!"\"O\" \"\" \"\" \"o\"\n",
  c!"\"P\" \"\" \"\" \"o\"\n",
  c!"\"U\" \"\" \"\" \"u\"\n",
  c!"\n",
  c!"\"J\" \"\" \"\" \"l\"\n"].flatten

/-- The contents of `rules/bm/ash_exact_common.txt`, `ASH_EXACT_COMMON` (rule.rs:446). -/
def ashExactCommonFile : Str := [
  c!"/*\n",
  c!" * Licensed to the Apache Software Foundation (ASF) under one or more\n",
  c!" * contributor license agreements.  See the NOTICE file distributed with\n",
  c!" * this work for additional information regarding copyright ownership.\n",
  c!" * The ASF licenses this file to You under the Apache License, Version 2.0\n",
  c!" * (the \"License\"); you may not use this file except in compliance with\n",
  c!" * the License.  You may obtain a copy of the License at\n",
  c!" *\n",
  c!" *      http://www.apache.org/licenses/LICENSE-2.0\n",
  c!" *\n",
  c!" * Unless required by applicable law or agreed to in writing, software\n",
  c!" * distributed under the License is distributed on an \"AS IS\" BASIS,\n",
  c!" * WITHOUT WARRANTIES OR CONDITIONS OF ANY KIND, either express or implied.\n",
  c!" * See the License for the specific language governing permissions and\n",
  c!" * limitations under the License.\n",
  c!" */\n",
  c!"\n",
  c!"#include ash_exact_approx_common\n",
  c!"\n",
  c!"\"H\" \"\" \"\" \"h\"\n",
  c!" \n",
  c!"// VOICED - UNVOICED CONSONANTS\n",
  c!"\n",
  c!"\"s\" \"[^t]\" \"[bgZd]\" \"z\"\n",
  c!"\"Z\" \"\" \"[pfkst]\" \"S\"\n",
  c!"\"Z\" \"\" \"$\" \"S\"\n",
  c!"\"S\" \"\" \"[bgzd]\" \"Z\"\n",
  c!"\"z\" \"\" \"$\" \"s\"\n",
  c!"    \n",
  c!"\"ji\" \"[aAoOeEiIuU]\" \"\" \"j\"\n",
  c!"\"jI\" \"[aAoOeEiIuU]\" \"\" \"j\"\n",
  c!"\"je\" \"[aAoOeEiIuU]\" \"\" \"j\"\n",
  c!"\"jE\" \"[aAoOeEiIuU]\" \"\" \"j\"\n"].flatten

/-- Lines 1 to 100 of `rules/bm/ash_rules_any.txt`. -/
def ashRulesAnyFile1 : Str := [
  c!"/*\n",
  c!" * Licensed to the Apache Software Foundation (ASF) under one or more\n",
  c!" * contributor license agreements.  See the NOTICE file distributed with\n",
  c!" * this work for additional information regarding copyright ownership.\n",
  c!" * The ASF licenses this file to You under the Apache License, Version 2.0\n",
  c!" * (the \"License\"); you may not use this file except in compliance with\n",
  c!" * the License.  You may obtain a copy of the License at\n",
  c!" *\n",
  c!" *      http://www.apache.org/licenses/LICENSE-2.0\n",
  c!" *\n",
  c!" * Unless required by applicable law or agreed to in writing, software\n",
  c!" * distributed under the License is distributed on an \"AS IS\" BASIS,\n",
  c!" * WITHOUT WARRANTIES OR CONDITIONS OF ANY KIND, either express or implied.\n",
  c!" * See the License for the specific language governing permissions and\n",
  c!" * limitations under the License.\n",
  c!" */\n",
  c!"\n",
  c!"//ASHKENAZIC\n",
  c!"\n",
  c!"// CONVERTING FEMININE TO MASCULINE\n",
  c!"\"yna\" \"\" \"$\" \"(in[russian]|ina)\"\n",
  c!"\"ina\" \"\" \"$\" \"(in[russian]|ina)\"\n",
  c!"\"liova\" \"\" \"$\" \"(lof[russian]|lef[russian]|lova)\"\n",
  c!"\"lova\" \"\" \"$\" \"(lof[russian]|lef[russian]|lova)\"\n",
  c!"\"ova\" \"\" \"$\" \"(of[russian]|ova)\"\n",
  c!"\"eva\" \"\" \"$\" \"(ef[russian]|eva)\"\n",
  c!"\"aia\" \"\" \"$\" \"(aja|i[russian])\"\n",
  c!"\"aja\" \"\" \"$\" \"(aja|i[russian])\"\n",
  c!"\"aya\" \"\" \"$\" \"(aja|i[russian])\"\n",
  c!"    \n",
  c!"\"lowa\" \"\" \"$\" \"(lova|lof[polish]|l[polish]|el[polish])\"\n",
  c!"\"kowa\" \"\" \"$\" \"(kova|kof[polish]|k[polish]|ek[polish])\"\n",
  c!"\"owa\" \"\" \"$\" \"(ova|of[polish]|)\"\n",
  c!"\"lowna\" \"\" \"$\" \"(lovna|levna|l[polish]|el[polish])\"\n",
  c!"\"kowna\" \"\" \"$\" \"(kovna|k[polish]|ek[polish])\"\n",
  c!"\"owna\" \"\" \"$\" \"(ovna|[polish])\"\n",
  c!"\"lówna\" \"\" \"$\" \"(l|el[polish])\"  // polish\n",
  c!"\"kówna\" \"\" \"$\" \"(k|ek[polish])\"  // polish\n",
  c!"\"ówna\" \"\" \"$\" \"\"   // polish\n",
  c!"    \n",
  c!"\"a\" \"\" \"$\" \"(a|i[polish])\"\n",
  c!"    \n",
  c!"// CONSONANTS  (integrated: German, Polish, Russian, Romanian and English)\n",
  c!"\n",
  c!"\"rh\" \"^\" \"\" \"r\"\n",
  c!"\"ssch\" \"\" \"\" \"S\" \n",
  c!"\"chsch\" \"\" \"\" \"xS\" \n",
  c!"\"tsch\" \"\" \"\" \"tS\" \n",
  c!"    \n",
  c!"\"sch\" \"\" \"[ei]\" \"(sk[romanian]|S|StS[russian])\" // german\n",
  c!"\"sch\" \"\" \"\" \"(S|StS[russian])\" // german\n",
  c!"            \n",
  c!"\"ssh\" \"\" \"\" \"S\" \n",
  c!"    \n",
  c!"\"sh\" \"\" \"[äöü]\" \"sh\" // german\n",
  c!"\"sh\" \"\" \"[aeiou]\" \"(S[russian+english]|sh)\"\n",
  c!"\"sh\" \"\" \"\" \"S\" // russian+english\n",
  c!"\n",
  c!"\"kh\" \"\" \"\" \"(x[russian+english]|kh)\"\n",
  c!"\n",
  c!"\"chs\" \"\" \"\" \"(ks[german]|xs|tSs[russian+english])\"\n",
  c!"\n",
  c!"    // French \"ch\" is currently disabled\n",
  c!"    //array(\"ch\" \"\" \"[ei]\" \"(x|tS|k[romanian]|S[french])\"\n",
  c!"    //array(\"ch\" \"\" \"\" \"(x|tS[russian+english]|S[french])\"\n",
  c!"    \n",
  c!"\"ch\" \"\" \"[ei]\" \"(x|k[romanian]|tS[russian+english])\"\n",
  c!"\"ch\" \"\" \"\" \"(x|tS[russian+english])\"\n",
  c!"        \n",
  c!"\"ck\" \"\" \"\" \"(k|tsk[polish])\"\n",
  c!"        \n",
  c!"\"czy\" \"\" \"\" \"tSi\"\n",
  c!"\"cze\" \"\" \"[bcdgkpstwzż]\" \"(tSe|tSF)\"\n",
  c!"\"ciewicz\" \"\" \"\" \"(tsevitS|tSevitS)\"\n",
  c!"\"siewicz\" \"\" \"\" \"(sevitS|SevitS)\"\n",
  c!"\"ziewicz\" \"\" \"\" \"(zevitS|ZevitS)\"\n",
  c!"\"riewicz\" \"\" \"\" \"rjevitS\" \n",
  c!"\"diewicz\" \"\" \"\" \"djevitS\" \n",
  c!"\"tiewicz\" \"\" \"\" \"tjevitS\" \n",
  c!"\"iewicz\" \"\" \"\" \"evitS\"\n",
  c!"\"ewicz\" \"\" \"\" \"evitS\"\n",
  c!"\"owicz\" \"\" \"\" \"ovitS\"\n",
  c!"\"icz\" \"\" \"\" \"itS\"\n",
  c!"\"cz\" \"\" \"\" \"tS\" // Polish\n",
  c!"    \n",
  c!"\"cia\" \"\" \"[bcdgkpstwzż]\" \"(tSB[polish]|tsB)\"\n",
  c!"\"cia\" \"\" \"\" \"(tSa[polish]|tsa)\" \n",
  c!"\"cią\" \"\" \"[bp]\" \"(tSom[polish]|tsom)\"\n",
  c!"\"cią\" \"\" \"\" \"(tSon[polish]|tson)\"\n",
  c!"\"cię\" \"\" \"[bp]\" \"(tSem[polish]|tsem)\"\n",
  c!"\"cię\" \"\" \"\" \"(tSen[polish]|tsen)\"\n",
  c!"\"cie\" \"\" \"[bcdgkpstwzż]\" \"(tSF[polish]|tsF)\"\n",
  c!"\"cie\" \"\" \"\" \"(tSe[polish]|tse)\"\n",
  c!"\"cio\" \"\" \"\" \"(tSo[polish]|tso)\"\n",
  c!"\"ciu\" \"\" \"\" \"(tSu[polish]|tsu)\"\n",
  c!"\n",
  c!"\"ci\" \"\" \"$\" \"(tsi[polish]|tSi[polish+romanian]|tS[romanian]|si)\"\n",
  c!"\"ci\" \"\" \"\" \"(tsi[polish]|tSi[polish+romanian]|si)\"\n",
  c!"\"ce\" \"\" \"[bcdgkpstwzż]\" \"(tsF[polish]|tSe[polish+romanian]|se)\"\n",
  c!"\"ce\" \"\" \"\" \"(tSe[polish+romanian]|tse[polish]|se)\"\n"].flatten

/-- Lines 101 to 200 of `rules/bm/ash_rules_any.txt`. -/
def ashRulesAnyFile2 : Str := [
  c!"\"cy\" \"\" \"\" \"(si|tsi[polish])\"\n",
  c!"              \n",
  c!"\"ssz\" \"\" \"\" \"S\" // Polish\n",
  c!"\"sz\" \"\" \"\" \"S\" // Polish; actually could also be Hungarian /s/, disabled here \n",
  c!"    \n",
  c!"\"ssp\" \"\" \"\" \"(Sp[german]|sp)\"\n",
  c!"\"sp\" \"\" \"\" \"(Sp[german]|sp)\"\n",
  c!"\"sst\" \"\" \"\" \"(St[german]|st)\"\n",
  c!"\"st\" \"\" \"\" \"(St[german]|st)\"\n",
  c!"\"ss\" \"\" \"\" \"s\" \n",
  c!"    \n",
  c!"\"sia\" \"\" \"[bcdgkpstwzż]\" \"(SB[polish]|sB[polish]|sja)\"\n",
  c!"\"sia\" \"\" \"\" \"(Sa[polish]|sja)\"\n",
  c!"\"sią\" \"\" \"[bp]\" \"(Som[polish]|som)\"\n",
  c!"\"sią\" \"\" \"\" \"(Son[polish]|son)\"\n",
  c!"\"się\" \"\" \"[bp]\" \"(Sem[polish]|sem)\"\n",
  c!"\"się\" \"\" \"\" \"(Sen[polish]|sen)\"\n",
  c!"\"sie\" \"\" \"[bcdgkpstwzż]\" \"(SF[polish]|sF|zi[german])\"\n",
  c!"\"sie\" \"\" \"\" \"(se|Se[polish]|zi[german])\"\n",
  c!"\"sio\" \"\" \"\" \"(So[polish]|so)\"\n",
  c!"\"siu\" \"\" \"\" \"(Su[polish]|sju)\"\n",
  c!"\"si\" \"\" \"\" \"(Si[polish]|si|zi[german])\"\n",
  c!"\"s\" \"\" \"[aeiouäöë]\" \"(s|z[german])\"\n",
  c!"        \n",
  c!"\"gue\" \"\" \"\" \"ge\" \n",
  c!"\"gui\" \"\" \"\" \"gi\" \n",
  c!"\"guy\" \"\" \"\" \"gi\" \n",
  c!"\"gh\" \"\" \"[ei]\" \"(g[romanian]|gh)\"\n",
  c!"    \n",
  c!"\"gauz\" \"\" \"$\" \"haus\" \n",
  c!"\"gaus\" \"\" \"$\" \"haus\" \n",
  c!"\"gol'ts\" \"\" \"$\" \"holts\" \n",
  c!"\"golts\" \"\" \"$\" \"holts\" \n",
  c!"\"gol'tz\" \"\" \"$\" \"holts\" \n",
  c!"\"goltz\" \"\" \"\" \"holts\" \n",
  c!"\"gol'ts\" \"^\" \"\" \"holts\" \n",
  c!"\"golts\" \"^\" \"\" \"holts\" \n",
  c!"\"gol'tz\" \"^\" \"\" \"holts\" \n",
  c!"\"goltz\" \"^\" \"\" \"holts\" \n",
  c!"\"gendler\" \"\" \"$\" \"hendler\" \n",
  c!"\"gejmer\" \"\" \"$\" \"hajmer\" \n",
  c!"\"gejm\" \"\" \"$\" \"hajm\" \n",
  c!"\"geymer\" \"\" \"$\" \"hajmer\" \n",
  c!"\"geym\" \"\" \"$\" \"hajm\" \n",
  c!"\"geimer\" \"\" \"$\" \"hajmer\" \n",
  c!"\"geim\" \"\" \"$\" \"hajm\" \n",
  c!"\"gof\" \"\" \"$\" \"hof\" \n",
  c!"    \n",
  c!"\"ger\" \"\" \"$\" \"ger\" \n",
  c!"\"gen\" \"\" \"$\" \"gen\" \n",
  c!"\"gin\" \"\" \"$\" \"gin\" \n",
  c!"    \n",
  c!"\"gie\" \"\" \"$\" \"(ge|gi[german]|ji[french])\"\n",
  c!"\"gie\" \"\" \"\" \"ge\" \n",
  c!"\"ge\" \"[yaeiou]\" \"\" \"(gE|xe[spanish]|dZe[english+romanian])\"\n",
  c!"\"gi\" \"[yaeiou]\" \"\" \"(gI|xi[spanish]|dZi[english+romanian])\"\n",
  c!"\"ge\" \"\" \"\" \"(gE|dZe[english+romanian]|hE[russian]|xe[spanish])\"\n",
  c!"\"gi\" \"\" \"\" \"(gI|dZi[english+romanian]|hI[russian]|xi[spanish])\"\n",
  c!"\"gy\" \"\" \"[aeouáéóúüöőű]\" \"(gi|dj[hungarian])\"\n",
  c!"\"gy\" \"\" \"\" \"(gi|d[hungarian])\"\n",
  c!"\"g\" \"[jyaeiou]\" \"[aouyei]\" \"g\" \n",
  c!"\"g\" \"\" \"[aouei]\" \"(g|h[russian])\"\n",
  c!"              \n",
  c!"\"ej\" \"\" \"\" \"(aj|eZ[french+romanian]|ex[spanish])\"\n",
  c!"\"ej\" \"\" \"\" \"aj\"\n",
  c!"    \n",
  c!"\"ly\" \"\" \"[au]\" \"l\" \n",
  c!"\"li\" \"\" \"[au]\" \"l\" \n",
  c!"\"lj\" \"\" \"[au]\" \"l\" \n",
  c!"\"lio\" \"\" \"\" \"(lo|le[russian])\"\n",
  c!"\"lyo\" \"\" \"\" \"(lo|le[russian])\"\n",
  c!"\"ll\" \"\" \"\" \"(l|J[spanish])\"\n",
  c!"  \n",
  c!"\"j\" \"\" \"[aoeiuy]\" \"(j|dZ[english]|x[spanish]|Z[french+romanian])\"\n",
  c!"\"j\" \"\" \"\" \"(j|x[spanish])\"\n",
  c!"                       \n",
  c!"\"pf\" \"\" \"\" \"(pf|p|f)\" \n",
  c!"\"ph\" \"\" \"\" \"(ph|f)\"\n",
  c!"    \n",
  c!"\"qu\" \"\" \"\" \"(kv[german]|k)\"\n",
  c!"        \n",
  c!"\"rze\" \"t\" \"\" \"(Se[polish]|re)\" // polish\n",
  c!"\"rze\" \"\" \"\" \"(rze|rtsE[german]|Ze[polish]|re[polish]|rZe[polish])\"\n",
  c!"\"rzy\" \"t\" \"\" \"(Si[polish]|ri)\" // polish\n",
  c!"\"rzy\" \"\" \"\" \"(Zi[polish]|ri[polish]|rZi)\"\n",
  c!"\"rz\" \"t\" \"\" \"(S[polish]|r)\" // polish\n",
  c!"\"rz\" \"\" \"\" \"(rz|rts[german]|Z[polish]|r[polish]|rZ[polish])\" // polish\n",
  c!"    \n",
  c!"\"tz\" \"\" \"$\" \"(ts|tS[english+german])\"\n",
  c!"\"tz\" \"^\" \"\" \"(ts|tS[english+german])\"\n",
  c!"\"tz\" \"\" \"\" \"(ts[english+german+russian]|tz)\"\n",
  c!"    \n",
  c!"\"zh\" \"\" \"\" \"(Z|zh[polish]|tsh[german])\"\n",
  c!"        \n",
  c!"\"zia\" \"\" \"[bcdgkpstwzż]\" \"(ZB[polish]|zB[polish]|zja)\"\n",
  c!"\"zia\" \"\" \"\" \"(Za[polish]|zja)\"\n",
  c!"\"zią\" \"\" \"[bp]\" \"(Zom[polish]|zom)\"\n",
  c!"\"zią\" \"\" \"\" \"(Zon[polish]|zon)\"\n",
  c!"\"zię\" \"\" \"[bp]\" \"(Zem[polish]|zem)\"\n",
  c!"\"zię\" \"\" \"\" \"(Zen[polish]|zen)\"\n"].flatten

/-- Lines 201 to 300 of `rules/bm/ash_rules_any.txt`. -/
def ashRulesAnyFile3 : Str := [
  c!"\"zie\" \"\" \"[bcdgkpstwzż]\" \"(ZF[polish]|zF[polish]|ze|tsi[german])\"\n",
  c!"\"zie\" \"\" \"\" \"(ze|Ze[polish]|tsi[german])\"\n",
  c!"\"zio\" \"\" \"\" \"(Zo[polish]|zo)\"\n",
  c!"\"ziu\" \"\" \"\" \"(Zu[polish]|zju)\"\n",
  c!"\"zi\" \"\" \"\" \"(Zi[polish]|zi|tsi[german])\"\n",
  c!"            \n",
  c!"\"thal\" \"\" \"$\" \"tal\" \n",
  c!"\"th\" \"^\" \"\" \"t\" \n",
  c!"\"th\" \"\" \"[aeiou]\" \"(t[german]|th)\"\n",
  c!"\"th\" \"\" \"\" \"t\" // german \n",
  c!"\"vogel\" \"\" \"\" \"(vogel|fogel[german])\"\n",
  c!"\"v\" \"^\" \"\" \"(v|f[german])\"\n",
  c!"        \n",
  c!"\"h\" \"[aeiouyäöü]\" \"\" \"\" //german\n",
  c!"\"h\" \"\" \"\" \"(h|x[romanian+polish])\"\n",
  c!"\"h\" \"^\" \"\" \"(h|H[english+german])\" // H can be exact \"h\" or approximate \"kh\"\n",
  c!"    \n",
  c!" // VOWELS  \n",
  c!"\"yi\" \"^\" \"\" \"i\"\n",
  c!"    \n",
  c!"    //\"e\" \"\" \"$\" \"(e|)\"  // French & English rule disabled except for final -ine\n",
  c!"\"e\" \"in\" \"$\" \"(e|[french])\"\n",
  c!"    \n",
  c!"\"ii\" \"\" \"$\" \"i\" // russian\n",
  c!"\"iy\" \"\" \"$\" \"i\" // russian\n",
  c!"\"yy\" \"\" \"$\" \"i\" // russian\n",
  c!"\"yi\" \"\" \"$\" \"i\" // russian\n",
  c!"\"yj\" \"\" \"$\" \"i\" // russian\n",
  c!"\"ij\" \"\" \"$\" \"i\" // russian\n",
  c!"    \n",
  c!"\"aue\" \"\" \"\" \"aue\" \n",
  c!"\"oue\" \"\" \"\" \"oue\" \n",
  c!"    \n",
  c!"\"au\" \"\" \"\" \"(au|o[french])\"\n",
  c!"\"ou\" \"\" \"\" \"(ou|u[french])\"\n",
  c!"        \n",
  c!"\"ue\" \"\" \"\" \"(Q|uje[russian])\"\n",
  c!"\"ae\" \"\" \"\" \"(Y[german]|aje[russian]|ae)\"\n",
  c!"\"oe\" \"\" \"\" \"(Y[german]|oje[russian]|oe)\"\n",
  c!"\"ee\" \"\" \"\" \"(i[english]|aje[russian]|e)\"\n",
  c!"    \n",
  c!"\"ei\" \"\" \"\" \"aj\"\n",
  c!"\"ey\" \"\" \"\" \"aj\"\n",
  c!"\"eu\" \"\" \"\" \"(aj[german]|oj[german]|eu)\"\n",
  c!"    \n",
  c!"\"i\" \"[aou]\" \"\" \"j\"\n",
  c!"\"y\" \"[aou]\" \"\" \"j\"\n",
  c!"    \n",
  c!"\"ie\" \"\" \"[bcdgkpstwzż]\" \"(i[german]|e[polish]|ije[russian]|je)\"\n",
  c!"\"ie\" \"\" \"\" \"(i[german]|e[polish]|ije[russian]|je)\"\n",
  c!"\"ye\" \"\" \"\" \"(je|ije[russian])\"\n",
  c!"         \n",
  c!"\"i\" \"\" \"[au]\" \"j\"\n",
  c!"\"y\" \"\" \"[au]\" \"j\"\n",
  c!"\"io\" \"\" \"\" \"(jo|e[russian])\"\n",
  c!"\"yo\" \"\" \"\" \"(jo|e[russian])\"\n",
  c!"            \n",
  c!"\"ea\" \"\" \"\" \"(ea|ja[romanian])\"\n",
  c!"\"e\" \"^\" \"\" \"(e|je[russian])\"\n",
  c!"\"oo\" \"\" \"\" \"(u[english]|o)\"\n",
  c!"\"uu\" \"\" \"\" \"u\" \n",
  c!"    \n",
  c!"// LANGUAGE SPECIFIC CHARACTERS \n",
  c!"\"ć\" \"\" \"\" \"(tS[polish]|ts)\"  // polish\n",
  c!"\"ł\" \"\" \"\" \"l\"  // polish\n",
  c!"\"ń\" \"\" \"\" \"n\"  // polish\n",
  c!"\"ñ\" \"\" \"\" \"(n|nj[spanish])\"\n",
  c!"\"ś\" \"\" \"\" \"(S[polish]|s)\" // polish\n",
  c!"\"ş\" \"\" \"\" \"S\"  // romanian\n",
  c!"\"ţ\" \"\" \"\" \"ts\"  // romanian\n",
  c!"\"ż\" \"\" \"\" \"Z\"  // polish\n",
  c!"\"ź\" \"\" \"\" \"(Z[polish]|z)\" // polish\n",
  c!"\n",
  c!"\"où\" \"\" \"\" \"u\" // french\n",
  c!"    \n",
  c!"\"ą\" \"\" \"[bp]\" \"om\"  // polish\n",
  c!"\"ą\" \"\" \"\" \"on\"  // polish\n",
  c!"\"ä\" \"\" \"\" \"(Y|e)\" // german\n",
  c!"\"á\" \"\" \"\" \"a\" // hungarian\n",
  c!"\"ă\" \"\" \"\" \"(e[romanian]|a)\" //romanian\n",
  c!"\"à\" \"\" \"\" \"a\"  // french\n",
  c!"\"â\" \"\" \"\" \"a\" //french+romanian\n",
  c!"\"é\" \"\" \"\" \"e\" \n",
  c!"\"è\" \"\" \"\" \"e\" // french\n",
  c!"\"ê\" \"\" \"\" \"e\" // french\n",
  c!"\"ę\" \"\" \"[bp]\" \"em\"  // polish\n",
  c!"\"ę\" \"\" \"\" \"en\"  // polish\n",
  c!"\"í\" \"\" \"\" \"i\" \n",
  c!"\"î\" \"\" \"\" \"i\" \n",
  c!"\"ö\" \"\" \"\" \"Y\"\n",
  c!"\"ő\" \"\" \"\" \"Y\" // hungarian\n",
  c!"\"ó\" \"\" \"\" \"(u[polish]|o)\"\n",
  c!"\"ű\" \"\" \"\" \"Q\" \n",
  c!"\"ü\" \"\" \"\" \"Q\"\n",
  c!"\"ú\" \"\" \"\" \"u\" \n",
  c!"\"ű\" \"\" \"\" \"Q\" // hungarian\n",
  c!"  \n",
  c!"\"ß\" \"\" \"\" \"s\"  // german\n",
  c!"\"'\" \"\" \"\" \"\" \n",
  c!"\"\\\"\" \"\" \"\" \"\"\n"].flatten

/-- Lines 301 to 332 of `rules/bm/ash_rules_any.txt`. -/
def ashRulesAnyFile4 : Str := [
  c!"       \n",
  c!"\"a\" \"\" \"[bcdgkpstwzż]\" \"(A|B[polish])\"\n",
  c!"\"e\" \"\" \"[bcdgkpstwzż]\" \"(E|F[polish])\"\n",
  c!"\"o\" \"\" \"[bcćdgklłmnńrsśtwzźż]\" \"(O|P[polish])\"\n",
  c!"  \n",
  c!"  // LATIN ALPHABET\n",
  c!"\"a\" \"\" \"\" \"A\"\n",
  c!"\"b\" \"\" \"\" \"b\"\n",
  c!"\"c\" \"\" \"\" \"(k|ts[polish])\"\n",
  c!"\"d\" \"\" \"\" \"d\"\n",
  c!"\"e\" \"\" \"\" \"E\"  \n",
  c!"\"f\" \"\" \"\" \"f\"\n",
  c!"\"g\" \"\" \"\" \"g\"\n",
  c!"\"h\" \"\" \"\" \"h\" \n",
  c!"\"i\" \"\" \"\" \"I\"\n",
  c!"\"j\" \"\" \"\" \"j\"\n",
  c!"\"k\" \"\" \"\" \"k\"\n",
  c!"\"l\" \"\" \"\" \"l\"\n",
  c!"\"m\" \"\" \"\" \"m\"\n",
  c!"\"n\" \"\" \"\" \"n\"\n",
  c!"\"o\" \"\" \"\" \"O\"\n",
  c!"\"p\" \"\" \"\" \"p\"\n",
  c!"\"q\" \"\" \"\" \"k\"\n",
  c!"\"r\" \"\" \"\" \"r\"\n",
  c!"\"s\" \"\" \"\" \"s\"\n",
  c!"\"t\" \"\" \"\" \"t\"\n",
  c!"\"u\" \"\" \"\" \"U\"\n",
  c!"\"v\" \"\" \"\" \"v\"\n",
  c!"\"w\" \"\" \"\" \"v\" // English disabled\n",
  c!"\"x\" \"\" \"\" \"ks\" \n",
  c!"\"y\" \"\" \"\" \"i\"\n",
  c!"\"z\" \"\" \"\" \"(ts[german]|z)\"\n"].flatten

/-- The contents of `rules/bm/ash_rules_any.txt`, `ASH_RULES_ANY` (rule.rs:447). -/
def ashRulesAnyFile : Str := ashRulesAnyFile1 ++ ashRulesAnyFile2 ++ ashRulesAnyFile3 ++ ashRulesAnyFile4

/-- The contents of `rules/bm/gen_exact_approx_common.txt`, `GEN_EXACT_APPROX_COMMON` (rule.rs:449). -/
def genExactApproxCommonFile : Str := [
  c!"/*\n",
  c!" * Licensed to the Apache Software Foundation (ASF) under one or more\n",
  c!" * contributor license agreements.  See the NOTICE file distributed with\n",
  c!" * this work for additional information regarding copyright ownership.\n",
  c!" * The ASF licenses this file to You under the Apache License, Version 2.0\n",
  c!" * (the \"License\"); you may not use this file except in compliance with\n",
  c!" * the License.  You may obtain a copy of the License at\n",
  c!" *\n",
  c!" *      http://www.apache.org/licenses/LICENSE-2.0\n",
  c!" *\n",
  c!" * Unless required by applicable law or agreed to in writing, software\n",
  c!" * distributed under the License is distributed on an \"AS IS\" BASIS,\n",
  c!" * WITHOUT WARRANTIES OR CONDITIONS OF ANY KIND, either express or implied.\n",
  c!" * See the License for the specific language governing permissions and\n",
  c!" * limitations under the License.\n",
  c!" */\n",
  c!"\n",
  c!"// GENERAL\n",
  c!"\"h\" \"\" \"$\" \"\"\n",
  c!"\n",
  c!"// VOICED - UNVOICED CONSONANTS\n",
  c!"\"b\" \"\" \"[fktSs]\" \"p\"\n",
  c!"\"b\" \"\" \"p\" \"\"\n",
  c!"\"b\" \"\" \"$\" \"p\"\n",
  c!"\"p\" \"\" \"[vgdZz]\" \"b\" // Ashk: \"v\" excluded (everythere)\n",
  c!"\"p\" \"\" \"b\" \"\"\n",
  c!"    \n",
  c!"\"v\" \"\" \"[pktSs]\" \"f\"\n",
  c!"\"v\" \"\" \"f\" \"\"\n",
  c!"\"v\" \"\" \"$\" \"f\"\n",
  c!"\"f\" \"\" \"[vbgdZz]\" \"v\"\n",
  c!"\"f\" \"\" \"v\" \"\"\n",
  c!"    \n",
  c!"\"g\" \"\" \"[pftSs]\" \"k\"\n",
  c!"\"g\" \"\" \"k\" \"\"\n",
  c!"\"g\" \"\" \"$\" \"k\"\n",
  c!"\"k\" \"\" \"[vbdZz]\" \"g\"\n",
  c!"\"k\" \"\" \"g\" \"\"\n",
  c!"    \n",
  c!"\"d\" \"\" \"[pfkSs]\" \"t\"\n",
  c!"\"d\" \"\" \"t\" \"\"\n",
  c!"\"d\" \"\" \"$\" \"t\"\n",
  c!"\"t\" \"\" \"[vbgZz]\" \"d\"\n",
  c!"\"t\" \"\" \"d\" \"\"\n",
  c!"    \n",
  c!"\"s\" \"\" \"dZ\" \"\"\n",
  c!"\"s\" \"\" \"tS\" \"\"\n",
  c!"    \n",
  c!"\"z\" \"\" \"[pfkSt]\" \"s\"\n",
  c!"\"z\" \"\" \"[sSzZ]\" \"\"\n",
  c!"\"s\" \"\" \"[sSzZ]\" \"\"\n",
  c!"\"Z\" \"\" \"[sSzZ]\" \"\"\n",
  c!"\"S\" \"\" \"[sSzZ]\" \"\"\n",
  c!"       \n",
  c!"// SIMPLIFICATION OF CONSONANT CLUSTERS\n",
  c!"\"jnm\" \"\" \"\" \"jm\"\n",
  c!"\n",
  c!"// DOUBLE --> SINGLE\n",
  c!"\"ji\" \"^\" \"\" \"i\"\n",
  c!"\"jI\" \"^\" \"\" \"I\"\n",
  c!"        \n",
  c!"\"a\" \"\" \"[aA]\" \"\" \n",
  c!"\"a\" \"A\" \"\" \"\" \n",
  c!"\"A\" \"\" \"A\" \"\"\n",
  c!"       \n",
  c!"\"b\" \"\" \"b\" \"\"\n",
  c!"\"d\" \"\" \"d\" \"\"\n",
  c!"\"f\" \"\" \"f\" \"\"\n",
  c!"\"g\" \"\" \"g\" \"\"\n",
  c!"\"j\" \"\" \"j\" \"\"\n",
  c!"\"k\" \"\" \"k\" \"\"\n",
  c!"\"l\" \"\" \"l\" \"\"\n",
  c!"\"m\" \"\" \"m\" \"\"\n",
  c!"\"n\" \"\" \"n\" \"\"\n",
  c!"\"p\" \"\" \"p\" \"\"\n",
  c!"\"r\" \"\" \"r\" \"\"\n",
  c!"\"t\" \"\" \"t\" \"\"\n",
  c!"\"v\" \"\" \"v\" \"\"\n",
  c!"\"z\" \"\" \"z\" \"\"\n"].flatten

/-- Lines 1 to 100 of `rules/bm/gen_approx_any.txt`. -/
def genApproxAnyFile1 : Str := [
  c!"/*\n",
  c!" * Licensed to the Apache Software Foundation (ASF) under one or more\n",
  c!" * contributor license agreements.  See the NOTICE file distributed with\n",
  c!" * this work for additional information regarding copyright ownership.\n",
  c!" * The ASF licenses this file to You under the Apache License, Version 2.0\n",
  c!" * (the \"License\"); you may not use this file except in compliance with\n",
  c!" * the License.  You may obtain a copy of the License at\n",
  c!" *\n",
  c!" *      http://www.apache.org/licenses/LICENSE-2.0\n",
  c!" *\n",
  c!" * Unless required by applicable law or agreed to in writing, software\n",
  c!" * distributed under the License is distributed on an \"AS IS\" BASIS,\n",
  c!" * WITHOUT WARRANTIES OR CONDITIONS OF ANY KIND, either express or implied.\n",
  c!" * See the License for the specific language governing permissions and\n",
  c!" * limitations under the License.\n",
  c!" */\n",
  c!"\n",
  c!"// GENERIC\n",
  c!"// A, E, I, O, P, U should create variants, but a, e, i, o, u should not create any new variant\n",
  c!"// Q = ü ; Y = ä = ö\n",
  c!"// EE = final \"e\" (english or french)\n",
  c!"\n",
  c!"// VOWELS\n",
  c!"    // \"ALL\" DIPHTHONGS are interchangeable BETWEEN THEM and with monophthongs of which they are composed (\"D\" means \"diphthong\")\n",
  c!"    //  {a,o} are totally interchangeable if non-stressed; in German \"a/o\" can actually be from \"ä/ö\" (that are equivalent to \"e\")\n",
  c!"    //  {i,e} are interchangeable if non-stressed, while in German \"u\" can actually be from \"ü\" (that is equivalent to \"i\")\n",
  c!"\n",
  c!"\"mb\" \"\" \"\" \"(mb|b[greeklatin])\"\n",
  c!"\"mp\" \"\" \"\" \"(mp|b[greeklatin])\"\n",
  c!"\"ng\" \"\" \"\" \"(ng|g[greeklatin])\"\n",
  c!"\n",
  c!"\"B\" \"\" \"[fktSs]\" \"(p|f[spanish])\" \n",
  c!"\"B\" \"\" \"p\" \"\" \n",
  c!"\"B\" \"\" \"$\" \"(p|f[spanish])\" \n",
  c!"\"V\" \"\" \"[pktSs]\" \"(f|p[spanish])\" \n",
  c!"\"V\" \"\" \"f\" \"\" \n",
  c!"\"V\" \"\" \"$\" \"(f|p[spanish])\" \n",
  c!"\"B\" \"\" \"\" \"(b|v[spanish])\"\n",
  c!"\"V\" \"\" \"\" \"(v|b[spanish])\"\n",
  c!"    \n",
  c!"    // French word-final and word-part-final letters\n",
  c!"\"t\" \"\" \"$\" \"(t|[french])\"\n",
  c!"\"g\" \"n\" \"$\" \"(g|[french])\"\n",
  c!"\"k\" \"n\" \"$\" \"(k|[french])\"\n",
  c!"\"p\" \"\" \"$\" \"(p|[french])\"\n",
  c!"\"r\" \"[Ee]\" \"$\" \"(r|[french])\"\n",
  c!"\"s\" \"\" \"$\" \"(s|[french])\"\n",
  c!"\"t\" \"[aeiouAEIOU]\" \"[^aeiouAEIOU]\" \"(t|[french])\" // Petitjean\n",
  c!"\"s\" \"[aeiouAEIOU]\" \"[^aeiouAEIOU]\" \"(s|[french])\" // Groslot, Grosleau\n",
  c!"    //array(\"p\" \"[aeiouAEIOU]\" \"[^aeiouAEIOU]\" \"(p|[french])\" \n",
  c!"    \n",
  c!"\"I\" \"[aeiouAEIBFOUQY]\" \"\" \"i\"\n",
  c!"\"I\" \"\" \"[^aeiouAEBFIOU]e\" \"(Q[german]|i|D[english])\"  // \"line\"\n",
  c!"\"I\" \"\" \"$\" \"i\"\n",
  c!"\"I\" \"\" \"[^k]$\" \"i\"\n",
  c!"\"Ik\" \"[lr]\" \"$\" \"(ik|Qk[german])\"\n",
  c!"\"Ik\" \"\" \"$\" \"ik\"\n",
  c!"\"sIts\" \"\" \"$\" \"(sits|sQts[german])\"\n",
  c!"\"Its\" \"\" \"$\" \"its\"\n",
  c!"\"I\" \"\" \"\" \"(Q[german]|i)\"\n",
  c!"   \n",
  c!"\"lEE\" \"[bdfgkmnprsStvzZ]\" \"\" \"(li|il[english])\"  // Apple = Appel\n",
  c!"\"rEE\" \"[bdfgkmnprsStvzZ]\" \"\" \"(ri|ir[english])\"\n",
  c!"\"lE\" \"[bdfgkmnprsStvzZ]\" \"\" \"(li|il[english]|lY[german])\"  // Applebaum < Appelbaum\n",
  c!"\"rE\" \"[bdfgkmnprsStvzZ]\" \"\" \"(ri|ir[english]|rY[german])\"\n",
  c!"    \n",
  c!"\"EE\" \"\" \"\" \"(i|)\" \n",
  c!"\"ea\" \"\" \"\" \"(D|a|i)\"\n",
  c!"    \n",
  c!"\"au\" \"\" \"\" \"(D|a|u)\"\n",
  c!"\"ou\" \"\" \"\" \"(D|o|u)\"\n",
  c!"\"eu\" \"\" \"\" \"(D|e|u)\"\n",
  c!"    \n",
  c!"\"ai\" \"\" \"\" \"(D|a|i)\"\n",
  c!"\"Ai\" \"\" \"\" \"(D|a|i)\"\n",
  c!"\"oi\" \"\" \"\" \"(D|o|i)\"\n",
  c!"\"Oi\" \"\" \"\" \"(D|o|i)\"\n",
  c!"\"ui\" \"\" \"\" \"(D|u|i)\"\n",
  c!"\"Ui\" \"\" \"\" \"(D|u|i)\"\n",
  c!"\"ei\" \"\" \"\" \"(D|i)\"\n",
  c!"\"Ei\" \"\" \"\" \"(D|i)\"\n",
  c!"    \n",
  c!"\"iA\" \"\" \"$\" \"(ia|io)\" \n",
  c!"\"iA\" \"\" \"\" \"(ia|io|iY[german])\"\n",
  c!"\"A\" \"\" \"[^aeiouAEBFIOU]e\" \"(a|o|Y[german]|D[english])\" // \"plane\"\n",
  c!"    \n",
  c!"    \n",
  c!"\"E\" \"i[^aeiouAEIOU]\" \"\" \"(i|Y[german]|[english])\" // Wineberg (vineberg/vajneberg) --> vajnberg\n",
  c!"\"E\" \"a[^aeiouAEIOU]\" \"\" \"(i|Y[german]|[english])\" //  Shaneberg (shaneberg/shejneberg) --> shejnberg\n",
  c!"    \n",
  c!"\"E\" \"\" \"[fklmnprst]$\" \"i\"\n",
  c!"\"E\" \"\" \"ts$\" \"i\"\n",
  c!"\"E\" \"\" \"$\" \"i\"\n",
  c!"\"E\" \"[DaoiuAOIUQY]\" \"\" \"i\"\n",
  c!"\"E\" \"\" \"[aoAOQY]\" \"i\"\n",
  c!"\"E\" \"\" \"\" \"(i|Y[german])\"\n",
  c!"        \n",
  c!"\"P\" \"\" \"\" \"(o|u)\" \n",
  c!"    \n",
  c!"\"O\" \"\" \"[fklmnprstv]$\" \"o\"\n"].flatten

/-- Lines 101 to 131 of `rules/bm/gen_approx_any.txt`. -/
def genApproxAnyFile2 : Str := [
  c!"\"O\" \"\" \"ts$\" \"o\"\n",
  c!"\"O\" \"\" \"$\" \"o\"\n",
  c!"\"O\" \"[oeiuQY]\" \"\" \"o\"\n",
  c!"\"O\" \"\" \"\" \"(o|Y[german])\"\n",
  c!"\"O\" \"\" \"\" \"o\"\n",
  c!"    \n",
  c!"\"A\" \"\" \"[fklmnprst]$\" \"(a|o)\"\n",
  c!"\"A\" \"\" \"ts$\" \"(a|o)\"\n",
  c!"\"A\" \"\" \"$\" \"(a|o)\"\n",
  c!"\"A\" \"[oeiuQY]\" \"\" \"(a|o)\"\n",
  c!"\"A\" \"\" \"\" \"(a|o|Y[german])\"\n",
  c!"\"A\" \"\" \"\" \"(a|o)\"\n",
  c!"\n",
  c!"\"U\" \"\" \"$\" \"u\"\n",
  c!"\"U\" \"[DoiuQY]\" \"\" \"u\"\n",
  c!"\"U\" \"\" \"[^k]$\" \"u\"\n",
  c!"\"Uk\" \"[lr]\" \"$\" \"(uk|Qk[german])\"\n",
  c!"\"Uk\" \"\" \"$\" \"uk\"\n",
  c!"\"sUts\" \"\" \"$\" \"(suts|sQts[german])\"\n",
  c!"\"Uts\" \"\" \"$\" \"uts\"\n",
  c!"\"U\" \"\" \"\" \"(u|Q[german])\"\n",
  c!"\"U\" \"\" \"\" \"u\"\n",
  c!"\n",
  c!"\"e\" \"\" \"[fklmnprstv]$\" \"i\"\n",
  c!"\"e\" \"\" \"ts$\" \"i\"\n",
  c!"\"e\" \"\" \"$\" \"i\"\n",
  c!"\"e\" \"[DaoiuAOIUQY]\" \"\" \"i\"\n",
  c!"\"e\" \"\" \"[aoAOQY]\" \"i\"\n",
  c!"\"e\" \"\" \"\" \"(i|Y[german])\"\n",
  c!"        \n",
  c!"\"a\" \"\" \"\" \"(a|o)\"\n"].flatten

/-- The contents of `rules/bm/gen_approx_any.txt`, `GEN_APPROX_ANY` (rule.rs:451). -/
def genApproxAnyFile : Str := genApproxAnyFile1 ++ genApproxAnyFile2

/-- Lines 1 to 100 of `rules/bm/gen_approx_common.txt`. -/
def genApproxCommonFile1 : Str := [
  c!"/*\n",
  c!" * Licensed to the Apache Software Foundation (ASF) under one or more\n",
  c!" * contributor license agreements.  See the NOTICE file distributed with\n",
  c!" * this work for additional information regarding copyright ownership.\n",
  c!" * The ASF licenses this file to You under the Apache License, Version 2.0\n",
  c!" * (the \"License\"); you may not use this file except in compliance with\n",
  c!" * the License.  You may obtain a copy of the License at\n",
  c!" *\n",
  c!" *      http://www.apache.org/licenses/LICENSE-2.0\n",
  c!" *\n",
  c!" * Unless required by applicable law or agreed to in writing, software\n",
  c!" * distributed under the License is distributed on an \"AS IS\" BASIS,\n",
  c!" * WITHOUT WARRANTIES OR CONDITIONS OF ANY KIND, either express or implied.\n",
  c!" * See the License for the specific language governing permissions and\n",
  c!" * limitations under the License.\n",
  c!" */\n",
  c!"\n",
  c!"// GENERIC\n",
  c!"\n",
  c!"#include gen_exact_approx_common\n",
  c!"\n",
  c!"// DUTCH \n",
  c!"\"van\" \"^\" \"[bp]\" \"(vam|)\" \n",
  c!"\"van\" \"^\" \"\" \"(van|)\" \n",
  c!"\n",
  c!"// REGRESSIVE ASSIMILATION OF CONSONANTS\n",
  c!"\"n\" \"\" \"[bp]\" \"m\" \n",
  c!"        \n",
  c!"// PECULIARITY OF \"h\" \n",
  c!"\"h\" \"\" \"\" \"\" \n",
  c!"\"H\" \"\" \"\" \"(x|)\" \n",
  c!"\n",
  c!"// \"e\" and \"i\" ARE TO BE OMITTED BEFORE (SYLLABIC) n & l: Halperin=Halpern; Frankel = Frankl, Finkelstein = Finklstein\n",
  c!"// but Andersen & Anderson should match\n",
  c!"\"sen\" \"[rmnl]\" \"$\" \"(zn|zon)\"\n",
  c!"\"sen\" \"\" \"$\" \"(sn|son)\"\n",
  c!"\"sEn\" \"[rmnl]\" \"$\" \"(zn|zon)\"\n",
  c!"\"sEn\" \"\" \"$\" \"(sn|son)\"\n",
  c!"            \n",
  c!"\"e\" \"[BbdfgklmnprsStvzZ]\" \"[ln]$\" \"\"\n",
  c!"\"i\" \"[BbdfgklmnprsStvzZ]\" \"[ln]$\" \"\"\n",
  c!"\"E\" \"[BbdfgklmnprsStvzZ]\" \"[ln]$\" \"\"\n",
  c!"\"I\" \"[BbdfgklmnprsStvzZ]\" \"[ln]$\" \"\"\n",
  c!"\"Q\" \"[BbdfgklmnprsStvzZ]\" \"[ln]$\" \"\"\n",
  c!"\"Y\" \"[BbdfgklmnprsStvzZ]\" \"[ln]$\" \"\"\n",
  c!"\n",
  c!"\"e\" \"[BbdfgklmnprsStvzZ]\" \"[ln][BbdfgklmnprsStvzZ]\" \"\"\n",
  c!"\"i\" \"[BbdfgklmnprsStvzZ]\" \"[ln][BbdfgklmnprsStvzZ]\" \"\"\n",
  c!"\"E\" \"[BbdfgklmnprsStvzZ]\" \"[ln][BbdfgklmnprsStvzZ]\" \"\"\n",
  c!"\"I\" \"[BbdfgklmnprsStvzZ]\" \"[ln][BbdfgklmnprsStvzZ]\" \"\"\n",
  c!"\"Q\" \"[BbdfgklmnprsStvzZ]\" \"[ln][BbdfgklmnprsStvzZ]\" \"\"\n",
  c!"\"Y\" \"[BbdfgklmnprsStvzZ]\" \"[ln][BbdfgklmnprsStvzZ]\" \"\"\n",
  c!"\n",
  c!"\"lEs\" \"\" \"\" \"(lEs|lz)\"  // Applebaum < Appelbaum (English + blend English-something forms as Finklestein)\n",
  c!"\"lE\" \"[bdfgkmnprStvzZ]\" \"\" \"(lE|l)\"  // Applebaum < Appelbaum (English + blend English-something forms as Finklestein)\n",
  c!"\n",
  c!"// SIMPLIFICATION: (TRIPHTHONGS & DIPHTHONGS) -> ONE GENERIC DIPHTHONG \"D\"\n",
  c!"\"aue\" \"\" \"\" \"D\"\n",
  c!"\"oue\" \"\" \"\" \"D\"\n",
  c!"    \n",
  c!"\"AvE\" \"\" \"\" \"(D|AvE)\"\n",
  c!"\"Ave\" \"\" \"\" \"(D|Ave)\"\n",
  c!"\"avE\" \"\" \"\" \"(D|avE)\"\n",
  c!"\"ave\" \"\" \"\" \"(D|ave)\"\n",
  c!"    \n",
  c!"\"OvE\" \"\" \"\" \"(D|OvE)\"\n",
  c!"\"Ove\" \"\" \"\" \"(D|Ove)\"\n",
  c!"\"ovE\" \"\" \"\" \"(D|ovE)\"\n",
  c!"\"ove\" \"\" \"\" \"(D|ove)\"\n",
  c!"    \n",
  c!"\"ea\" \"\" \"\" \"(D|ea)\"\n",
  c!"\"EA\" \"\" \"\" \"(D|EA)\"\n",
  c!"\"Ea\" \"\" \"\" \"(D|Ea)\"\n",
  c!"\"eA\" \"\" \"\" \"(D|eA)\"\n",
  c!"             \n",
  c!"\"aji\" \"\" \"\" \"D\"\n",
  c!"\"ajI\" \"\" \"\" \"D\"\n",
  c!"\"aje\" \"\" \"\" \"D\"\n",
  c!"\"ajE\" \"\" \"\" \"D\"\n",
  c!"    \n",
  c!"\"Aji\" \"\" \"\" \"D\"\n",
  c!"\"AjI\" \"\" \"\" \"D\"\n",
  c!"\"Aje\" \"\" \"\" \"D\"\n",
  c!"\"AjE\" \"\" \"\" \"D\"\n",
  c!"    \n",
  c!"\"oji\" \"\" \"\" \"D\"\n",
  c!"\"ojI\" \"\" \"\" \"D\"\n",
  c!"\"oje\" \"\" \"\" \"D\"\n",
  c!"\"ojE\" \"\" \"\" \"D\"\n",
  c!"    \n",
  c!"\"Oji\" \"\" \"\" \"D\"\n",
  c!"\"OjI\" \"\" \"\" \"D\"\n",
  c!"\"Oje\" \"\" \"\" \"D\"\n",
  c!"\"OjE\" \"\" \"\" \"D\"\n",
  c!"    \n",
  c!"\"eji\" \"\" \"\" \"D\"\n",
  c!"\"ejI\" \"\" \"\" \"D\"\n",
  c!"\"eje\" \"\" \"\" \"D\"\n",
  c!"\"ejE\" \"\" \"\" \"D\"\n",
  c!"    \n"].flatten

/-- Lines 101 to 200 of `rules/bm/gen_approx_common.txt`. -/
def genApproxCommonFile2 : Str := [
  c!"\"Eji\" \"\" \"\" \"D\"\n",
  c!"\"EjI\" \"\" \"\" \"D\"\n",
  c!"\"Eje\" \"\" \"\" \"D\"\n",
  c!"\"EjE\" \"\" \"\" \"D\"\n",
  c!"    \n",
  c!"\"uji\" \"\" \"\" \"D\"\n",
  c!"\"ujI\" \"\" \"\" \"D\"\n",
  c!"\"uje\" \"\" \"\" \"D\"\n",
  c!"\"ujE\" \"\" \"\" \"D\"\n",
  c!"    \n",
  c!"\"Uji\" \"\" \"\" \"D\"\n",
  c!"\"UjI\" \"\" \"\" \"D\"\n",
  c!"\"Uje\" \"\" \"\" \"D\"\n",
  c!"\"UjE\" \"\" \"\" \"D\"\n",
  c!"        \n",
  c!"\"iji\" \"\" \"\" \"D\"\n",
  c!"\"ijI\" \"\" \"\" \"D\"\n",
  c!"\"ije\" \"\" \"\" \"D\"\n",
  c!"\"ijE\" \"\" \"\" \"D\"\n",
  c!"    \n",
  c!"\"Iji\" \"\" \"\" \"D\"\n",
  c!"\"IjI\" \"\" \"\" \"D\"\n",
  c!"\"Ije\" \"\" \"\" \"D\"\n",
  c!"\"IjE\" \"\" \"\" \"D\"\n",
  c!"                         \n",
  c!"\"aja\" \"\" \"\" \"D\"\n",
  c!"\"ajA\" \"\" \"\" \"D\"\n",
  c!"\"ajo\" \"\" \"\" \"D\"\n",
  c!"\"ajO\" \"\" \"\" \"D\"\n",
  c!"\"aju\" \"\" \"\" \"D\"\n",
  c!"\"ajU\" \"\" \"\" \"D\"\n",
  c!"    \n",
  c!"\"Aja\" \"\" \"\" \"D\"\n",
  c!"\"AjA\" \"\" \"\" \"D\"\n",
  c!"\"Ajo\" \"\" \"\" \"D\"\n",
  c!"\"AjO\" \"\" \"\" \"D\"\n",
  c!"\"Aju\" \"\" \"\" \"D\"\n",
  c!"\"AjU\" \"\" \"\" \"D\"\n",
  c!"    \n",
  c!"\"oja\" \"\" \"\" \"D\"\n",
  c!"\"ojA\" \"\" \"\" \"D\"\n",
  c!"\"ojo\" \"\" \"\" \"D\"\n",
  c!"\"ojO\" \"\" \"\" \"D\"\n",
  c!"\"Aju\" \"\" \"\" \"D\"\n",
  c!"\"AjU\" \"\" \"\" \"D\"\n",
  c!"    \n",
  c!"\"Oja\" \"\" \"\" \"D\"\n",
  c!"\"OjA\" \"\" \"\" \"D\"\n",
  c!"\"Ojo\" \"\" \"\" \"D\"\n",
  c!"\"OjO\" \"\" \"\" \"D\"\n",
  c!"\"Aju\" \"\" \"\" \"D\"\n",
  c!"\"AjU\" \"\" \"\" \"D\"\n",
  c!"    \n",
  c!"\"eja\" \"\" \"\" \"D\"\n",
  c!"\"ejA\" \"\" \"\" \"D\"\n",
  c!"\"ejo\" \"\" \"\" \"D\"\n",
  c!"\"ejO\" \"\" \"\" \"D\"\n",
  c!"\"Aju\" \"\" \"\" \"D\"\n",
  c!"\"AjU\" \"\" \"\" \"D\"\n",
  c!"    \n",
  c!"\"Eja\" \"\" \"\" \"D\"\n",
  c!"\"EjA\" \"\" \"\" \"D\"\n",
  c!"\"Ejo\" \"\" \"\" \"D\"\n",
  c!"\"EjO\" \"\" \"\" \"D\"\n",
  c!"\"Aju\" \"\" \"\" \"D\"\n",
  c!"\"AjU\" \"\" \"\" \"D\"\n",
  c!"    \n",
  c!"\"uja\" \"\" \"\" \"D\"\n",
  c!"\"ujA\" \"\" \"\" \"D\"\n",
  c!"\"ujo\" \"\" \"\" \"D\"\n",
  c!"\"ujO\" \"\" \"\" \"D\"\n",
  c!"\"Aju\" \"\" \"\" \"D\"\n",
  c!"\"AjU\" \"\" \"\" \"D\"\n",
  c!"        \n",
  c!"\"Uja\" \"\" \"\" \"D\"\n",
  c!"\"UjA\" \"\" \"\" \"D\"\n",
  c!"\"Ujo\" \"\" \"\" \"D\"\n",
  c!"\"UjO\" \"\" \"\" \"D\"\n",
  c!"\"Aju\" \"\" \"\" \"D\"\n",
  c!"\"AjU\" \"\" \"\" \"D\"\n",
  c!"        \n",
  c!"\"ija\" \"\" \"\" \"D\"\n",
  c!"\"ijA\" \"\" \"\" \"D\"\n",
  c!"\"ijo\" \"\" \"\" \"D\"\n",
  c!"\"ijO\" \"\" \"\" \"D\"\n",
  c!"\"Aju\" \"\" \"\" \"D\"\n",
  c!"\"AjU\" \"\" \"\" \"D\"\n",
  c!"    \n",
  c!"\"Ija\" \"\" \"\" \"D\"\n",
  c!"\"IjA\" \"\" \"\" \"D\"\n",
  c!"\"Ijo\" \"\" \"\" \"D\"\n",
  c!"\"IjO\" \"\" \"\" \"D\"                         \n",
  c!"\"Aju\" \"\" \"\" \"D\"\n",
  c!"\"AjU\" \"\" \"\" \"D\"\n",
  c!"                         \n",
  c!"\"j\" \"\" \"\" \"i\"                         \n",
  c!"                         \n",
  c!"// lander = lender = länder \n",
  c!"\"lYndEr\" \"\" \"$\" \"lYnder\" \n",
  c!"\"lander\" \"\" \"$\" \"lYnder\" \n"].flatten

/-- Lines 201 to 233 of `rules/bm/gen_approx_common.txt`. -/
def genApproxCommonFile3 : Str := [
  c!"\"lAndEr\" \"\" \"$\" \"lYnder\" \n",
  c!"\"lAnder\" \"\" \"$\" \"lYnder\" \n",
  c!"\"landEr\" \"\" \"$\" \"lYnder\" \n",
  c!"\"lender\" \"\" \"$\" \"lYnder\" \n",
  c!"\"lEndEr\" \"\" \"$\" \"lYnder\" \n",
  c!"\"lendEr\" \"\" \"$\" \"lYnder\" \n",
  c!"\"lEnder\" \"\" \"$\" \"lYnder\" \n",
  c!"\n",
  c!"// burg = berg\n",
  c!"\"burk\" \"\" \"$\" \"(burk|berk)\" \n",
  c!"\"bUrk\" \"\" \"$\" \"(burk|berk)\"\n",
  c!"\"burg\" \"\" \"$\" \"(burk|berk)\"\n",
  c!"\"bUrg\" \"\" \"$\" \"(burk|berk)\"\n",
  c!"\"Burk\" \"\" \"$\" \"(burk|berk)\"\n",
  c!"\"BUrk\" \"\" \"$\" \"(burk|berk)\"\n",
  c!"\"Burg\" \"\" \"$\" \"(burk|berk)\"\n",
  c!"\"BUrg\" \"\" \"$\" \"(burk|berk)\"\n",
  c!"\n",
  c!"// CONSONANTS {z & Z; s & S} are approximately interchangeable\n",
  c!"\"s\" \"\" \"[rmnl]\" \"z\"\n",
  c!"\"S\" \"\" \"[rmnl]\" \"z\"\n",
  c!"\"s\" \"[rmnl]\" \"\" \"z\"\n",
  c!"\"S\" \"[rmnl]\" \"\" \"z\" \n",
  c!"    \n",
  c!"\"dS\" \"\" \"$\" \"S\"\n",
  c!"\"dZ\" \"\" \"$\" \"S\"\n",
  c!"\"Z\" \"\" \"$\" \"S\"\n",
  c!"\"S\" \"\" \"$\" \"(S|s)\"\n",
  c!"\"z\" \"\" \"$\" \"(S|s)\"\n",
  c!"    \n",
  c!"\"S\" \"\" \"\" \"s\"\n",
  c!"\"dZ\" \"\" \"\" \"z\"\n",
  c!"\"Z\" \"\" \"\" \"z\"\n"].flatten

/-- The contents of `rules/bm/gen_approx_common.txt`, `GEN_APPROX_COMMON` (rule.rs:452). -/
def genApproxCommonFile : Str := genApproxCommonFile1 ++ genApproxCommonFile2 ++ genApproxCommonFile3

/-- The contents of `rules/bm/gen_exact_any.txt`, `GEN_EXACT_ANY` (rule.rs:453). -/
def genExactAnyFile : Str := [
  c!"/*\n",
  c!" * Licensed to the Apache Software Foundation (ASF) under one or more\n",
  c!" * contributor license agreements.  See the NOTICE file distributed with\n",
  c!" * this work for additional information regarding copyright ownership.\n",
  c!" * The ASF licenses this file to You under the Apache License, Version 2.0\n",
  c!" * (the \"License\"); you may not use this file except in compliance with\n",
  c!" * the License.  You may obtain a copy of the License at\n",
  c!" *\n",
  c!" *      http://www.apache.org/licenses/LICENSE-2.0\n",
  c!" *\n",
  c!" * Unless required by applicable law or agreed to in writing, software\n",
  c!" * distributed under the License is distributed on an \"AS IS\" BASIS,\n",
  c!" * WITHOUT WARRANTIES OR CONDITIONS OF ANY KIND, either express or implied.\n",
  c!" * See the License for the specific language governing permissions and\n",
  c!" * limitations under the License.\n",
  c!" */\n",
  c!"\n",
  c!"// GENERAL\n",
  c!"   // A, E, I, O, P, U should create variants, \n",
  c!"   // EE = final \"e\" (english & french)\n",
  c!"   // V, B from Spanish\n",
  c!"   // but a, e, i, o, u should not create any new variant\n",
  c!"\"EE\" \"\" \"$\" \"e\"\n",
  c!"    \n",
  c!"\"A\" \"\" \"\" \"a\"\n",
  c!"\"E\" \"\" \"\" \"e\"\n",
  c!"\"I\" \"\" \"\" \"i\"\n",
  c!"\"O\" \"\" \"\" \"o\"\n",
  c!"\"P\" \"\" \"\" \"o\"\n",
  c!"\"U\" \"\" \"\" \"u\"\n",
  c!"\n",
  c!"\"B\" \"\" \"[fktSs]\" \"p\" \n",
  c!"\"B\" \"\" \"p\" \"\" \n",
  c!"\"B\" \"\" \"$\" \"p\" \n",
  c!"\"V\" \"\" \"[pktSs]\" \"f\" \n",
  c!"\"V\" \"\" \"f\" \"\" \n",
  c!"\"V\" \"\" \"$\" \"f\" \n",
  c!"\n",
  c!"\"B\" \"\" \"\" \"b\"\n",
  c!"\"V\" \"\" \"\" \"v\"\n"].flatten

/-- The contents of `rules/bm/gen_exact_common.txt`, `GEN_EXACT_COMMON` (rule.rs:454). -/
def genExactCommonFile : Str := [
  c!"/*\n",
  c!" * Licensed to the Apache Software Foundation (ASF) under one or more\n",
  c!" * contributor license agreements.  See the NOTICE file distributed with\n",
  c!" * this work for additional information regarding copyright ownership.\n",
  c!" * The ASF licenses this file to You under the Apache License, Version 2.0\n",
  c!" * (the \"License\"); you may not use this file except in compliance with\n",
  c!" * the License.  You may obtain a copy of the License at\n",
  c!" *\n",
  c!" *      http://www.apache.org/licenses/LICENSE-2.0\n",
  c!" *\n",
  c!" * Unless required by applicable law or agreed to in writing, software\n",
  c!" * distributed under the License is distributed on an \"AS IS\" BASIS,\n",
  c!" * WITHOUT WARRANTIES OR CONDITIONS OF ANY KIND, either express or implied.\n",
  c!" * See the License for the specific language governing permissions and\n",
  c!" * limitations under the License.\n",
  c!" */\n",
  c!"\n",
  c!"#include gen_exact_approx_common\n",
  c!"\n",
  c!"\"H\" \"\" \"\" \"\"\n",
  c!" \n",
  c!"// VOICED - UNVOICED CONSONANTS\n",
  c!"\"s\" \"[^t]\" \"[bgZd]\" \"z\"\n",
  c!"\"Z\" \"\" \"[pfkst]\" \"S\"\n",
  c!"\"Z\" \"\" \"$\" \"S\"\n",
  c!"\"S\" \"\" \"[bgzd]\" \"Z\"\n",
  c!"\"z\" \"\" \"$\" \"s\"\n",
  c!"    \n",
  c!"\"ji\" \"[aAoOeEiIuU]\" \"\" \"j\"\n",
  c!"\"jI\" \"[aAoOeEiIuU]\" \"\" \"j\"\n",
  c!"\"je\" \"[aAoOeEiIuU]\" \"\" \"j\"\n",
  c!"\"jE\" \"[aAoOeEiIuU]\" \"\" \"j\"\n"].flatten

/-- Lines 1 to 100 of `rules/bm/gen_rules_any.txt`. -/
def genRulesAnyFile1 : Str := [
  c!"/*\n",
  c!" * Licensed to the Apache Software Foundation (ASF) under one or more\n",
  c!" * contributor license agreements.  See the NOTICE file distributed with\n",
  c!" * this work for additional information regarding copyright ownership.\n",
  c!" * The ASF licenses this file to You under the Apache License, Version 2.0\n",
  c!" * (the \"License\"); you may not use this file except in compliance with\n",
  c!" * the License.  You may obtain a copy of the License at\n",
  c!" *\n",
  c!" *      http://www.apache.org/licenses/LICENSE-2.0\n",
  c!" *\n",
  c!" * Unless required by applicable law or agreed to in writing, software\n",
  c!" * distributed under the License is distributed on an \"AS IS\" BASIS,\n",
  c!" * WITHOUT WARRANTIES OR CONDITIONS OF ANY KIND, either express or implied.\n",
  c!" * See the License for the specific language governing permissions and\n",
  c!" * limitations under the License.\n",
  c!" */\n",
  c!"\n",
  c!"  // format of each entry rule in the table\n",
  c!"  //   (pattern, left context, right context, phonetic)\n",
  c!"  // where\n",
  c!"  //   pattern is a sequence of characters that might appear in the word to be transliterated\n",
  c!"  //   left context is the context that precedes the pattern\n",
  c!"  //   right context is the context that follows the pattern\n",
  c!"  //   phonetic is the result that this rule generates\n",
  c!"  //\n",
  c!"  // note that both left context and right context can be regular expressions\n",
  c!"  // ex: left context of ^ would mean start of word\n",
  c!"  //     left context of [aeiouy] means following a vowel\n",
  c!"  //     right context of [^aeiouy] means preceding a consonant\n",
  c!"  //     right context of e$ means preceding a final e\n",
  c!"\n",
  c!"//GENERIC\n",
  c!"\n",
  c!"// CONVERTING FEMININE TO MASCULINE\n",
  c!"\"yna\" \"\" \"$\" \"(in[russian]|ina)\" \n",
  c!"\"ina\" \"\" \"$\" \"(in[russian]|ina)\" \n",
  c!"\"liova\" \"\" \"$\" \"(lova|lof[russian]|lef[russian])\"\n",
  c!"\"lova\" \"\" \"$\" \"(lova|lof[russian]|lef[russian]|l[czech]|el[czech])\"   \n",
  c!"\"kova\" \"\" \"$\" \"(kova|kof[russian]|k[czech]|ek[czech])\"   \n",
  c!"\"ova\" \"\" \"$\" \"(ova|of[russian]|[czech])\"   \n",
  c!"\"ová\" \"\" \"$\" \"(ova|[czech])\"   \n",
  c!"\"eva\" \"\" \"$\" \"(eva|ef[russian])\"   \n",
  c!"\"aia\" \"\" \"$\" \"(aja|i[russian])\"\n",
  c!"\"aja\" \"\" \"$\" \"(aja|i[russian])\" \n",
  c!"\"aya\" \"\" \"$\" \"(aja|i[russian])\" \n",
  c!"    \n",
  c!"\"lowa\" \"\" \"$\" \"(lova|lof[polish]|l[polish]|el[polish])\"   \n",
  c!"\"kowa\" \"\" \"$\" \"(kova|kof[polish]|k[polish]|ek[polish])\"   \n",
  c!"\"owa\" \"\" \"$\" \"(ova|of[polish]|)\"   \n",
  c!"\"lowna\" \"\" \"$\" \"(lovna|levna|l[polish]|el[polish])\" \n",
  c!"\"kowna\" \"\" \"$\" \"(kovna|k[polish]|ek[polish])\"  \n",
  c!"\"owna\" \"\" \"$\" \"(ovna|[polish])\"  \n",
  c!"\"lówna\" \"\" \"$\" \"(l|el)\"  // polish\n",
  c!"\"kówna\" \"\" \"$\" \"(k|ek)\"  // polish\n",
  c!"\"ówna\" \"\" \"$\" \"\"         // polish\n",
  c!"\"á\" \"\" \"$\" \"(a|i[czech])\" \n",
  c!"\"a\" \"\" \"$\" \"(a|i[polish+czech])\" \n",
  c!"    \n",
  c!"// CONSONANTS\n",
  c!"\"pf\" \"\" \"\" \"(pf|p|f)\" \n",
  c!"\"que\" \"\" \"$\" \"(k[french]|ke|kve)\"\n",
  c!"\"qu\" \"\" \"\" \"(kv|k)\" \n",
  c!" \n",
  c!"\"m\" \"\" \"[bfpv]\" \"(m|n)\" \n",
  c!"\"m\" \"[aeiouy]\" \"[aeiouy]\" \"m\"  \n",
  c!"\"m\" \"[aeiouy]\" \"\" \"(m|n[french+portuguese])\"  // nasal\n",
  c!" \n",
  c!"\"ly\" \"\" \"[au]\" \"l\" \n",
  c!"\"li\" \"\" \"[au]\" \"l\" \n",
  c!"\"lio\" \"\" \"\" \"(lo|le[russian])\" \n",
  c!"\"lyo\" \"\" \"\" \"(lo|le[russian])\" \n",
  c!"  //array(\"ll\" \"\" \"\" \"(l|J[spanish])\"  // Disabled Argentinian rule\n",
  c!"\"lt\" \"u\" \"$\" \"(lt|[french])\" \n",
  c!"    \n",
  c!"\"v\" \"^\" \"\" \"(v|f[german]|b[spanish])\" \n",
  c!"\n",
  c!"\"ex\" \"\" \"[aáuiíoóeéêy]\" \"(ez[portuguese]|eS[portuguese]|eks|egz)\" \n",
  c!"\"ex\" \"\" \"[cs]\" \"(e[portuguese]|ek)\" \n",
  c!"\"x\" \"u\" \"$\" \"(ks|[french])\" \n",
  c!"   \n",
  c!"\"ck\" \"\" \"\" \"(k|tsk[polish+czech])\"\n",
  c!"\"cz\" \"\" \"\" \"(tS|tsz[czech])\" // Polish\n",
  c!"   \n",
  c!"    //Processing of \"h\" in various combinations         \n",
  c!"\"rh\" \"^\" \"\" \"r\"\n",
  c!"\"dh\" \"^\" \"\" \"d\"\n",
  c!"\"bh\" \"^\" \"\" \"b\"\n",
  c!"     \n",
  c!"\"ph\" \"\" \"\" \"(ph|f)\"\n",
  c!"\"kh\" \"\" \"\" \"(x[russian+english]|kh)\"  \n",
  c!"  \n",
  c!"\"lh\" \"\" \"\" \"(lh|l[portuguese])\" \n",
  c!"\"nh\" \"\" \"\" \"(nh|nj[portuguese])\" \n",
  c!"        \n",
  c!"\"ssch\" \"\" \"\" \"S\"      // german\n",
  c!"\"chsch\" \"\" \"\" \"xS\"    // german\n",
  c!"\"tsch\" \"\" \"\" \"tS\"     // german \n",
  c!"    \n",
  c!"    ///\"desch\" \"^\" \"\" \"deS\" \n",
  c!"    ///\"desh\" \"^\" \"\" \"(dES|de[french])\" \n"].flatten

/-- Lines 101 to 200 of `rules/bm/gen_rules_any.txt`. -/
def genRulesAnyFile2 : Str := [
  c!"    ///\"des\" \"^\" \"[^aeiouy]\" \"(dEs|de[french])\" \n",
  c!"    \n",
  c!"\"sch\" \"[aeiouy]\" \"[ei]\" \"(S|StS[russian]|sk[romanian+italian])\" \n",
  c!"\"sch\" \"[aeiouy]\" \"\" \"(S|StS[russian])\" \n",
  c!"\"sch\" \"\" \"[ei]\" \"(sk[romanian+italian]|S|StS[russian])\"\n",
  c!"\"sch\" \"\" \"\" \"(S|StS[russian])\"\n",
  c!"\"ssh\" \"\" \"\" \"S\" \n",
  c!"    \n",
  c!"\"sh\" \"\" \"[äöü]\" \"sh\"      // german \n",
  c!"\"sh\" \"\" \"[aeiou]\" \"(S[russian+english]|sh)\"\n",
  c!"\"sh\" \"\" \"\" \"S\" \n",
  c!" \n",
  c!"\"zh\" \"\" \"\" \"(Z[english+russian]|zh|tsh[german])\" \n",
  c!"    \n",
  c!"\"chs\" \"\" \"\" \"(ks[german]|xs|tSs[russian+english])\" \n",
  c!"\"ch\" \"\" \"[ei]\" \"(x|tS[spanish+english+russian]|k[romanian+italian]|S[portuguese+french])\" \n",
  c!"\"ch\" \"\" \"\" \"(x|tS[spanish+english+russian]|S[portuguese+french])\"  \n",
  c!" \n",
  c!"\"th\" \"^\" \"\" \"t\"     // english+german+greeklatin\n",
  c!"\"th\" \"\" \"[äöüaeiou]\" \"(t[english+german+greeklatin]|th)\"\n",
  c!"\"th\" \"\" \"\" \"t\"  // english+german+greeklatin\n",
  c!"   \n",
  c!"\"gh\" \"\" \"[ei]\" \"(g[romanian+italian+greeklatin]|gh)\" \n",
  c!"          \n",
  c!"\"ouh\" \"\" \"[aioe]\" \"(v[french]|uh)\"\n",
  c!"\"uh\" \"\" \"[aioe]\" \"(v|uh)\"\n",
  c!"\"h\" \".\" \"$\" \"\" // match h at the end of words, but not as a single letter: difference to the original version\n",
  c!"\"h\" \"[aeiouyäöü]\" \"\" \"\"  // german\n",
  c!"\"h\" \"^\" \"\" \"(h|x[romanian+greeklatin]|H[english+romanian+polish+french+portuguese+italian+spanish])\" \n",
  c!"         \n",
  c!"    //Processing of \"ci\" \"ce\" & \"cy\"\n",
  c!"\"cia\" \"\" \"\" \"(tSa[polish]|tsa)\"  // Polish\n",
  c!"\"cią\" \"\" \"[bp]\" \"(tSom|tsom)\"     // Polish\n",
  c!"\"cią\" \"\" \"\" \"(tSon[polish]|tson)\" // Polish\n",
  c!"\"cię\" \"\" \"[bp]\" \"(tSem[polish]|tsem)\" // Polish\n",
  c!"\"cię\" \"\" \"\" \"(tSen[polish]|tsen)\" // Polish\n",
  c!"\"cie\" \"\" \"\" \"(tSe[polish]|tse)\"  // Polish\n",
  c!"\"cio\" \"\" \"\" \"(tSo[polish]|tso)\"  // Polish\n",
  c!"\"ciu\" \"\" \"\" \"(tSu[polish]|tsu)\" // Polish\n",
  c!"\n",
  c!"\"sci\" \"\" \"$\" \"(Si[italian]|stsi[polish+czech]|dZi[turkish]|tSi[polish+romanian]|tS[romanian]|si)\" \n",
  c!"\"sc\" \"\" \"[ei]\" \"(S[italian]|sts[polish+czech]|dZ[turkish]|tS[polish+romanian]|s)\" \n",
  c!"\"ci\" \"\" \"$\" \"(tsi[polish+czech]|dZi[turkish]|tSi[polish+romanian]|tS[romanian]|si)\" \n",
  c!"\"cy\" \"\" \"\" \"(si|tsi[polish])\" \n",
  c!"\"c\" \"\" \"[ei]\" \"(ts[polish+czech]|dZ[turkish]|tS[polish+romanian]|k[greeklatin]|s)\" \n",
  c!"      \n",
  c!"    //Processing of \"s\"      \n",
  c!"\"sç\" \"\" \"[aeiou]\" \"(s|stS[turkish])\"\n",
  c!"\"ssz\" \"\" \"\" \"S\" // polish\n",
  c!"\"sz\" \"^\" \"\" \"(S|s[hungarian])\" // polish\n",
  c!"\"sz\" \"\" \"$\" \"(S|s[hungarian])\" // polish\n",
  c!"\"sz\" \"\" \"\" \"(S|s[hungarian]|sts[german])\" // polish\n",
  c!"\"ssp\" \"\" \"\" \"(Sp[german]|sp)\"\n",
  c!"\"sp\" \"\" \"\" \"(Sp[german]|sp)\"\n",
  c!"\"sst\" \"\" \"\" \"(St[german]|st)\"\n",
  c!"\"st\" \"\" \"\" \"(St[german]|st)\" \n",
  c!"\"ss\" \"\" \"\" \"s\"\n",
  c!"\"sj\" \"^\" \"\" \"S\" // dutch\n",
  c!"\"sj\" \"\" \"$\" \"S\" // dutch\n",
  c!"\"sj\" \"\" \"\" \"(sj|S[dutch]|sx[spanish]|sZ[romanian+turkish])\" \n",
  c!"  \n",
  c!"\"sia\" \"\" \"\" \"(Sa[polish]|sa[polish]|sja)\" \n",
  c!"\"sią\" \"\" \"[bp]\" \"(Som[polish]|som)\" // polish\n",
  c!"\"sią\" \"\" \"\" \"(Son[polish]|son)\" // polish\n",
  c!"\"się\" \"\" \"[bp]\" \"(Sem[polish]|sem)\" // polish\n",
  c!"\"się\" \"\" \"\" \"(Sen[polish]|sen)\" // polish\n",
  c!"\"sie\" \"\" \"\" \"(se|sje|Se[polish]|zi[german])\" \n",
  c!"    \n",
  c!"\"sio\" \"\" \"\" \"(So[polish]|so)\" \n",
  c!"\"siu\" \"\" \"\" \"(Su[polish]|sju)\" \n",
  c!"     \n",
  c!"\"si\" \"[äöëaáuiíoóeéêy]\" \"\" \"(Si[polish]|si|zi[portuguese+french+italian+german])\"\n",
  c!"\"si\" \"\" \"\" \"(Si[polish]|si|zi[german])\"\n",
  c!"\"s\" \"[aáuiíoóeéêy]\" \"[aáuíoóeéêy]\" \"(s|z[portuguese+french+italian+german])\" \n",
  c!"\"s\" \"\" \"[aeouäöë]\" \"(s|z[german])\"\n",
  c!"\"s\" \"[aeiouy]\" \"[dglmnrv]\" \"(s|z|Z[portuguese]|[french])\" // Groslot\n",
  c!"\"s\" \"\" \"[dglmnrv]\" \"(s|z|Z[portuguese])\" \n",
  c!"                 \n",
  c!"    //Processing of \"g\"   \n",
  c!"\"gue\" \"\" \"$\" \"(k[french]|gve)\"  // portuguese+spanish\n",
  c!"\"gu\" \"\" \"[ei]\" \"(g[french]|gv[portuguese+spanish])\" // portuguese+spanish\n",
  c!"\"gu\" \"\" \"[ao]\" \"gv\"     // portuguese+spanish\n",
  c!"\"guy\" \"\" \"\" \"gi\"  // french\n",
  c!"    \n",
  c!"\"gli\" \"\" \"\" \"(glI|l[italian])\" \n",
  c!"\"gni\" \"\" \"\" \"(gnI|ni[italian+french])\"\n",
  c!"\"gn\" \"\" \"[aeou]\" \"(n[italian+french]|nj[italian+french]|gn)\"\n",
  c!"    \n",
  c!"\"ggie\" \"\" \"\" \"(je[greeklatin]|dZe)\" // dZ is Italian\n",
  c!"\"ggi\" \"\" \"[aou]\" \"(j[greeklatin]|dZ)\" // dZ is Italian\n",
  c!"        \n",
  c!"\"ggi\" \"[yaeiou]\" \"[aou]\" \"(gI|dZ[italian]|j[greeklatin])\"  \n",
  c!"\"gge\" \"[yaeiou]\" \"\" \"(gE|xe[spanish]|gZe[portuguese+french]|dZe[english+romanian+italian+spanish]|je[greeklatin])\" \n",
  c!"\"ggi\" \"[yaeiou]\" \"\" \"(gI|xi[spanish]|gZi[portuguese+french]|dZi[english+romanian+italian+spanish]|i[greeklatin])\" \n",
  c!"\"ggi\" \"\" \"[aou]\" \"(gI|dZ[italian]|j[greeklatin])\" \n",
  c!"    \n",
  c!"\"gie\" \"\" \"$\" \"(ge|gi[german]|ji[french]|dZe[italian])\" \n",
  c!"\"gie\" \"\" \"\" \"(ge|gi[german]|dZe[italian]|je[greeklatin])\" \n",
  c!"\"gi\" \"\" \"[aou]\" \"(i[greeklatin]|dZ)\" // dZ is Italian\n",
  c!"        \n"].flatten

/-- Lines 201 to 300 of `rules/bm/gen_rules_any.txt`. -/
def genRulesAnyFile3 : Str := [
  c!"\"ge\" \"[yaeiou]\" \"\" \"(gE|xe[spanish]|Ze[portuguese+french]|dZe[english+romanian+italian+spanish])\" \n",
  c!"\"gi\" \"[yaeiou]\" \"\" \"(gI|xi[spanish]|Zi[portuguese+french]|dZi[english+romanian+italian+spanish])\" \n",
  c!"\"ge\" \"\" \"\" \"(gE|xe[spanish]|hE[russian]|je[greeklatin]|Ze[portuguese+french]|dZe[english+romanian+italian+spanish])\" \n",
  c!"\"gi\" \"\" \"\" \"(gI|xi[spanish]|hI[russian]|i[greeklatin]|Zi[portuguese+french]|dZi[english+romanian+italian+spanish])\" \n",
  c!"\"gy\" \"\" \"[aeouáéóúüöőű]\" \"(gi|dj[hungarian])\"\n",
  c!"\"gy\" \"\" \"\" \"(gi|d[hungarian])\" \n",
  c!"\"g\" \"[yaeiou]\" \"[aouyei]\" \"g\" \n",
  c!"\"g\" \"\" \"[aouei]\" \"(g|h[russian])\" \n",
  c!"    \n",
  c!"    //Processing of \"j\"        \n",
  c!"\"ij\" \"\" \"\" \"(i|ej[dutch]|ix[spanish]|iZ[french+romanian+turkish+portuguese])\" \n",
  c!"\"j\" \"\" \"[aoeiuy]\" \"(j|dZ[english]|x[spanish]|Z[french+romanian+turkish+portuguese])\" \n",
  c!"         \n",
  c!"    //Processing of \"z\"    \n",
  c!"\"rz\" \"t\" \"\" \"(S[polish]|r)\" // polish\n",
  c!"\"rz\" \"\" \"\" \"(rz|rts[german]|Z[polish]|r[polish]|rZ[polish])\" \n",
  c!"        \n",
  c!"\"tz\" \"\" \"$\" \"(ts|tS[english+german])\" \n",
  c!"\"tz\" \"^\" \"\" \"(ts[english+german+russian]|tS[english+german])\" \n",
  c!"\"tz\" \"\" \"\" \"(ts[english+german+russian]|tz)\" \n",
  c!"    \n",
  c!"\"zia\" \"\" \"[bcdgkpstwzż]\" \"(Za[polish]|za[polish]|zja)\" \n",
  c!"\"zia\" \"\" \"\" \"(Za[polish]|zja)\" \n",
  c!"\"zią\" \"\" \"[bp]\" \"(Zom[polish]|zom)\"  // polish\n",
  c!"\"zią\" \"\" \"\" \"(Zon[polish]|zon)\" // polish\n",
  c!"\"zię\" \"\" \"[bp]\" \"(Zem[polish]|zem)\" // polish\n",
  c!"\"zię\" \"\" \"\" \"(Zen[polish]|zen)\" // polish\n",
  c!"\"zie\" \"\" \"[bcdgkpstwzż]\" \"(Ze[polish]|ze[polish]|ze|tsi[german])\" \n",
  c!"\"zie\" \"\" \"\" \"(ze|Ze[polish]|tsi[german])\" \n",
  c!"\"zio\" \"\" \"\" \"(Zo[polish]|zo)\" \n",
  c!"\"ziu\" \"\" \"\" \"(Zu[polish]|zju)\" \n",
  c!"\"zi\" \"\" \"\" \"(Zi[polish]|zi|tsi[german]|dzi[italian]|tsi[italian]|si[spanish])\" \n",
  c!"\n",
  c!"\"z\" \"\" \"$\" \"(s|ts[german]|ts[italian]|S[portuguese])\" // ts It, s/S/Z Port, s in Sp, z Fr\n",
  c!"\"z\" \"\" \"[bdgv]\" \"(z|dz[italian]|Z[portuguese])\" // dz It, Z/z Port, z Sp & Fr\n",
  c!"\"z\" \"\" \"[ptckf]\" \"(s|ts[italian]|S[portuguese])\" // ts It, s/S/z Port, z/s Sp\n",
  c!"              \n",
  c!" // VOWELS  \n",
  c!"\"aue\" \"\" \"\" \"aue\" \n",
  c!"\"oue\" \"\" \"\" \"(oue|ve[french])\" \n",
  c!"\"eau\" \"\" \"\" \"o\" // French\n",
  c!"        \n",
  c!"\"ae\" \"\" \"\" \"(Y[german]|aje[russian]|ae)\" \n",
  c!"\"ai\" \"\" \"\" \"aj\" \n",
  c!"\"au\" \"\" \"\" \"(au|o[french])\" \n",
  c!"\"ay\" \"\" \"\" \"aj\" \n",
  c!"\"ão\" \"\" \"\" \"(au|an)\" // Port\n",
  c!"\"ãe\" \"\" \"\" \"(aj|an)\" // Port\n",
  c!"\"ãi\" \"\" \"\" \"(aj|an)\" // Port\n",
  c!"\"ea\" \"\" \"\" \"(ea|ja[romanian])\"\n",
  c!"\"ee\" \"\" \"\" \"(i[english]|aje[russian]|e)\" \n",
  c!"\"ei\" \"\" \"\" \"(aj|ej)\"\n",
  c!"\"eu\" \"\" \"\" \"(eu|Yj[german]|ej[german]|oj[german]|Y[dutch])\"\n",
  c!"\"ey\" \"\" \"\" \"(aj|ej)\"\n",
  c!"\"ia\" \"\" \"\" \"ja\" \n",
  c!"\"ie\" \"\" \"\" \"(i[german]|e[polish]|ije[russian]|Q[dutch]|je)\" \n",
  c!"\"ii\" \"\" \"$\" \"i\" // russian\n",
  c!"\"io\" \"\" \"\" \"(jo|e[russian])\"\n",
  c!"\"iu\" \"\" \"\" \"ju\" \n",
  c!"\"iy\" \"\" \"$\" \"i\" // russian\n",
  c!"\"oe\" \"\" \"\" \"(Y[german]|oje[russian]|u[dutch]|oe)\" \n",
  c!"\"oi\" \"\" \"\" \"oj\" \n",
  c!"\"oo\" \"\" \"\" \"(u[english]|o)\" \n",
  c!"\"ou\" \"\" \"\" \"(ou|u[french+greeklatin]|au[dutch])\" \n",
  c!"\"où\" \"\" \"\" \"u\" // french\n",
  c!"\"oy\" \"\" \"\" \"oj\" \n",
  c!"\"õe\" \"\" \"\" \"(oj|on)\" // Port\n",
  c!"\"ua\" \"\" \"\" \"va\"\n",
  c!"\"ue\" \"\" \"\" \"(Q[german]|uje[russian]|ve)\" \n",
  c!"\"ui\" \"\" \"\" \"(uj|vi|Y[dutch])\" \n",
  c!"\"uu\" \"\" \"\" \"(u|Q[dutch])\" \n",
  c!"\"uo\" \"\" \"\" \"(vo|o)\"\n",
  c!"\"uy\" \"\" \"\" \"uj\" \n",
  c!"\"ya\" \"\" \"\" \"ja\" \n",
  c!"\"ye\" \"\" \"\" \"(je|ije[russian])\"\n",
  c!"\"yi\" \"^\" \"\" \"i\"\n",
  c!"\"yi\" \"\" \"$\" \"i\" // russian\n",
  c!"\"yo\" \"\" \"\" \"(jo|e[russian])\"\n",
  c!"\"yu\" \"\" \"\" \"ju\" \n",
  c!"\"yy\" \"\" \"$\" \"i\" // russian\n",
  c!"    \n",
  c!"\"i\" \"[áóéê]\" \"\" \"j\"\n",
  c!"\"y\" \"[áóéê]\" \"\" \"j\"\n",
  c!"         \n",
  c!"\"e\" \"^\" \"\" \"(e|je[russian])\" \n",
  c!"\"e\" \"\" \"$\" \"(e|EE[english+french])\" \n",
  c!"            \n",
  c!"// LANGUAGE SPECIFIC CHARACTERS \n",
  c!"\"ą\" \"\" \"[bp]\" \"om\" // polish\n",
  c!"\"ą\" \"\" \"\" \"on\"  // polish\n",
  c!"\"ä\" \"\" \"\" \"(Y|e)\" \n",
  c!"\"á\" \"\" \"\" \"a\" // Port & Sp\n",
  c!"\"à\" \"\" \"\" \"a\" \n",
  c!"\"â\" \"\" \"\" \"a\" \n",
  c!"\"ã\" \"\" \"\" \"(a|an)\" // Port\n",
  c!"\"ă\" \"\" \"\" \"(e[romanian]|a)\" // romanian\n",
  c!"\"č\" \"\" \"\" \"tS\" // czech\n",
  c!"\"ć\" \"\" \"\" \"(tS[polish]|ts)\"  // polish\n",
  c!"\"ç\" \"\" \"\" \"(s|tS[turkish])\"\n",
  c!"\"ď\" \"\" \"\" \"(d|dj[czech])\"\n"].flatten

/-- Lines 301 to 367 of `rules/bm/gen_rules_any.txt`. -/
def genRulesAnyFile4 : Str := [
  c!"\"ę\" \"\" \"[bp]\" \"em\" // polish\n",
  c!"\"ę\" \"\" \"\" \"en\" // polish\n",
  c!"\"é\" \"\" \"\" \"e\" \n",
  c!"\"è\" \"\" \"\" \"e\" \n",
  c!"\"ê\" \"\" \"\" \"e\" \n",
  c!"\"ě\" \"\" \"\" \"(e|je[czech])\" \n",
  c!"\"ğ\" \"\" \"\" \"\" // turkish\n",
  c!"\"í\" \"\" \"\" \"i\" \n",
  c!"\"î\" \"\" \"\" \"i\" \n",
  c!"\"ı\" \"\" \"\" \"(i|e[turkish]|[turkish])\" \n",
  c!"\"ł\" \"\" \"\" \"l\" \n",
  c!"\"ń\" \"\" \"\" \"(n|nj[polish])\" // polish\n",
  c!"\"ñ\" \"\" \"\" \"(n|nj[spanish])\" \n",
  c!"\"ó\" \"\" \"\" \"(u[polish]|o)\"  \n",
  c!"\"ô\" \"\" \"\" \"o\" // Port & Fr\n",
  c!"\"õ\" \"\" \"\" \"(o|on[portuguese]|Y[hungarian])\" \n",
  c!"\"ò\" \"\" \"\" \"o\"  // Sp & It\n",
  c!"\"ö\" \"\" \"\" \"Y\"\n",
  c!"\"ř\" \"\" \"\" \"(r|rZ[czech])\"\n",
  c!"\"ś\" \"\" \"\" \"(S[polish]|s)\" \n",
  c!"\"ş\" \"\" \"\" \"S\" // romanian+turkish\n",
  c!"\"š\" \"\" \"\" \"S\" // czech\n",
  c!"\"ţ\" \"\" \"\" \"ts\"  // romanian\n",
  c!"\"ť\" \"\" \"\" \"(t|tj[czech])\"\n",
  c!"\"ű\" \"\" \"\" \"Q\" // hungarian\n",
  c!"\"ü\" \"\" \"\" \"(Q|u[portuguese+spanish])\"\n",
  c!"\"ú\" \"\" \"\" \"u\" \n",
  c!"\"ů\" \"\" \"\" \"u\" // czech\n",
  c!"\"ù\" \"\" \"\" \"u\" // french\n",
  c!"\"ý\" \"\" \"\" \"i\"  // czech\n",
  c!"\"ż\" \"\" \"\" \"Z\" // polish\n",
  c!"\"ź\" \"\" \"\" \"(Z[polish]|z)\" \n",
  c!"   \n",
  c!"\"ß\" \"\" \"\" \"s\" // german\n",
  c!"\"'\" \"\" \"\" \"\" // russian\n",
  c!"\"\\\"\" \"\" \"\" \"\" // russian\n",
  c!" \n",
  c!"\"o\" \"\" \"[bcćdgklłmnńrsśtwzźż]\" \"(O|P[polish])\"    \n",
  c!"    \n",
  c!" // LATIN ALPHABET\n",
  c!"\"a\" \"\" \"\" \"A\"\n",
  c!"\"b\" \"\" \"\" \"B\" \n",
  c!"\"c\" \"\" \"\" \"(k|ts[polish+czech]|dZ[turkish])\" \n",
  c!"\"d\" \"\" \"\" \"d\"\n",
  c!"\"e\" \"\" \"\" \"E\"\n",
  c!"\"f\" \"\" \"\" \"f\"\n",
  c!"   //array(\"g\" \"\" \"\" \"(g|x[dutch])\" // Dutch sound disabled\n",
  c!"\"g\" \"\" \"\" \"g\"\n",
  c!"\"h\" \"\" \"\" \"(h|x[romanian]|H[french+portuguese+italian+spanish])\" \n",
  c!"\"i\" \"\" \"\" \"I\"\n",
  c!"\"j\" \"\" \"\" \"(j|x[spanish]|Z[french+romanian+turkish+portuguese])\" \n",
  c!"\"k\" \"\" \"\" \"k\"\n",
  c!"\"l\" \"\" \"\" \"l\"\n",
  c!"\"m\" \"\" \"\" \"m\"\n",
  c!"\"n\" \"\" \"\" \"n\"\n",
  c!"\"o\" \"\" \"\" \"O\"\n",
  c!"\"p\" \"\" \"\" \"p\"\n",
  c!"\"q\" \"\" \"\" \"k\"\n",
  c!"\"r\" \"\" \"\" \"r\"\n",
  c!"\"s\" \"\" \"\" \"(s|S[portuguese])\" \n",
  c!"\"t\" \"\" \"\" \"t\"\n",
  c!"\"u\" \"\" \"\" \"U\"\n",
  c!"\"v\" \"\" \"\" \"V\" \n",
  c!"\"w\" \"\" \"\" \"(v|w[english+dutch])\"     \n",
  c!"\"x\" \"\" \"\" \"(ks|gz|S[portuguese+spanish])\"   // S/ks Port & Sp, gz Sp, It only ks\n",
  c!"\"y\" \"\" \"\" \"i\"\n",
  c!"\"z\" \"\" \"\" \"(z|ts[german]|dz[italian]|ts[italian]|s[spanish])\" // ts/dz It, z Port & Fr, z/s Sp\n"].flatten

/-- The contents of `rules/bm/gen_rules_any.txt`, `GEN_RULES_ANY` (rule.rs:455). -/
def genRulesAnyFile : Str := genRulesAnyFile1 ++ genRulesAnyFile2 ++ genRulesAnyFile3 ++ genRulesAnyFile4

/-- The contents of `rules/bm/sep_exact_approx_common.txt`, `SEP_EXACT_APPROX_COMMON` (rule.rs:457). -/
def sepExactApproxCommonFile : Str := [
  c!"/*\n",
  c!" * Licensed to the Apache Software Foundation (ASF) under one or more\n",
  c!" * contributor license agreements.  See the NOTICE file distributed with\n",
  c!" * this work for additional information regarding copyright ownership.\n",
  c!" * The ASF licenses this file to You under the Apache License, Version 2.0\n",
  c!" * (the \"License\"); you may not use this file except in compliance with\n",
  c!" * the License.  You may obtain a copy of the License at\n",
  c!" *\n",
  c!" *      http://www.apache.org/licenses/LICENSE-2.0\n",
  c!" *\n",
  c!" * Unless required by applicable law or agreed to in writing, software\n",
  c!" * distributed under the License is distributed on an \"AS IS\" BASIS,\n",
  c!" * WITHOUT WARRANTIES OR CONDITIONS OF ANY KIND, either express or implied.\n",
  c!" * See the License for the specific language governing permissions and\n",
  c!" * limitations under the License.\n",
  c!" */\n",
  c!"\n",
  c!"// Sephardic\n",
  c!"\n",
  c!"\"h\" \"\" \"$\" \"\"\n",
  c!"\n",
  c!"// VOICED - UNVOICED CONSONANTS\n",
  c!"\"b\" \"\" \"[fktSs]\" \"p\"\n",
  c!"\"b\" \"\" \"p\" \"\"\n",
  c!"\"b\" \"\" \"$\" \"p\"\n",
  c!"\"p\" \"\" \"[vgdZz]\" \"b\"\n",
  c!"\"p\" \"\" \"b\" \"\"\n",
  c!"\n",
  c!"\"v\" \"\" \"[pktSs]\" \"f\"\n",
  c!"\"v\" \"\" \"f\" \"\"\n",
  c!"\"v\" \"\" \"$\" \"f\"\n",
  c!"\"f\" \"\" \"[vbgdZz]\" \"v\"\n",
  c!"\"f\" \"\" \"v\" \"\"\n",
  c!"\n",
  c!"\"g\" \"\" \"[pftSs]\" \"k\"\n",
  c!"\"g\" \"\" \"k\" \"\"\n",
  c!"\"g\" \"\" \"$\" \"k\"\n",
  c!"\"k\" \"\" \"[vbdZz]\" \"g\"\n",
  c!"\"k\" \"\" \"g\" \"\"\n",
  c!"\n",
  c!"\"d\" \"\" \"[pfkSs]\" \"t\"\n",
  c!"\"d\" \"\" \"t\" \"\"\n",
  c!"\"d\" \"\" \"$\" \"t\"\n",
  c!"\"t\" \"\" \"[vbgZz]\" \"d\"\n",
  c!"\"t\" \"\" \"d\" \"\"\n",
  c!"\n",
  c!"\"s\" \"\" \"dZ\" \"\"\n",
  c!"\"s\" \"\" \"tS\" \"\"\n",
  c!"\n",
  c!"\"z\" \"\" \"[pfkSt]\" \"s\"\n",
  c!"\"z\" \"\" \"[sSzZ]\" \"\"\n",
  c!"\"s\" \"\" \"[sSzZ]\" \"\"\n",
  c!"\"Z\" \"\" \"[sSzZ]\" \"\"\n",
  c!"\"S\" \"\" \"[sSzZ]\" \"\"\n",
  c!"\n",
  c!"// SIMPLIFICATION OF CONSONANT CLUSTERS\n",
  c!"\"nm\" \"\" \"\" \"m\"\n",
  c!"\n",
  c!"// DOUBLE --> SINGLE\n",
  c!"\"ji\" \"^\" \"\" \"i\"\n",
  c!"\n",
  c!"\"a\" \"\" \"a\" \"\"\n",
  c!"\"b\" \"\" \"b\" \"\"\n",
  c!"\"d\" \"\" \"d\" \"\"\n",
  c!"\"e\" \"\" \"e\" \"\"\n",
  c!"\"f\" \"\" \"f\" \"\"\n",
  c!"\"g\" \"\" \"g\" \"\"\n",
  c!"\"i\" \"\" \"i\" \"\"\n",
  c!"\"k\" \"\" \"k\" \"\"\n",
  c!"\"l\" \"\" \"l\" \"\"\n",
  c!"\"m\" \"\" \"m\" \"\"\n",
  c!"\"n\" \"\" \"n\" \"\"\n",
  c!"\"o\" \"\" \"o\" \"\"\n",
  c!"\"p\" \"\" \"p\" \"\"\n",
  c!"\"r\" \"\" \"r\" \"\"\n",
  c!"\"t\" \"\" \"t\" \"\"\n",
  c!"\"u\" \"\" \"u\" \"\"\n",
  c!"\"v\" \"\" \"v\" \"\"\n",
  c!"\"z\" \"\" \"z\" \"\"\n"].flatten

/-- The contents of `rules/bm/sep_approx_any.txt`, `SEP_APPROX_ANY` (rule.rs:459). -/
def sepApproxAnyFile : Str := [
  c!"/*\n",
  c!" * Licensed to the Apache Software Foundation (ASF) under one or more\n",
  c!" * contributor license agreements.  See the NOTICE file distributed with\n",
  c!" * this work for additional information regarding copyright ownership.\n",
  c!" * The ASF licenses this file to You under the Apache License, Version 2.0\n",
  c!" * (the \"License\"); you may not use this file except in compliance with\n",
  c!" * the License.  You may obtain a copy of the License at\n",
  c!" *\n",
  c!" *      http://www.apache.org/licenses/LICENSE-2.0\n",
  c!" *\n",
  c!" * Unless required by applicable law or agreed to in writing, software\n",
  c!" * distributed under the License is distributed on an \"AS IS\" BASIS,\n",
  c!" * WITHOUT WARRANTIES OR CONDITIONS OF ANY KIND, either express or implied.\n",
  c!" * See the License for the specific language governing permissions and\n",
  c!" * limitations under the License.\n",
  c!" */\n",
  c!"\n",
  c!"// SEPHARDIC\n",
  c!"\n",
  c!"\"E\" \"\" \"\" \"\""].flatten

/-- Lines 1 to 100 of `rules/bm/sep_approx_common.txt`. -/
def sepApproxCommonFile1 : Str := [
  c!"/*\n",
  c!" * Licensed to the Apache Software Foundation (ASF) under one or more\n",
  c!" * contributor license agreements.  See the NOTICE file distributed with\n",
  c!" * this work for additional information regarding copyright ownership.\n",
  c!" * The ASF licenses this file to You under the Apache License, Version 2.0\n",
  c!" * (the \"License\"); you may not use this file except in compliance with\n",
  c!" * the License.  You may obtain a copy of the License at\n",
  c!" *\n",
  c!" *      http://www.apache.org/licenses/LICENSE-2.0\n",
  c!" *\n",
  c!" * Unless required by applicable law or agreed to in writing, software\n",
  c!" * distributed under the License is distributed on an \"AS IS\" BASIS,\n",
  c!" * WITHOUT WARRANTIES OR CONDITIONS OF ANY KIND, either express or implied.\n",
  c!" * See the License for the specific language governing permissions and\n",
  c!" * limitations under the License.\n",
  c!" */\n",
  c!"\n",
  c!"#include sep_exact_approx_common\n",
  c!"\n",
  c!"\"bens\" \"^\" \"\" \"(binz|s)\" \n",
  c!"\"benS\" \"^\" \"\" \"(binz|s)\" \n",
  c!"\"ben\" \"^\" \"\" \"(bin|)\" \n",
  c!"\n",
  c!"\"abens\" \"^\" \"\" \"(abinz|binz|s)\" \n",
  c!"\"abenS\" \"^\" \"\" \"(abinz|binz|s)\" \n",
  c!"\"aben\" \"^\" \"\" \"(abin|bin|)\"\n",
  c!"\n",
  c!"\"els\" \"^\" \"\" \"(ilz|alz|s)\" \n",
  c!"\"elS\" \"^\" \"\" \"(ilz|alz|s)\" \n",
  c!"\"el\" \"^\" \"\" \"(il|al|)\" \n",
  c!"\"als\" \"^\" \"\" \"(alz|s)\" \n",
  c!"\"alS\" \"^\" \"\" \"(alz|s)\" \n",
  c!"\"al\" \"^\" \"\" \"(al|)\" \n",
  c!"\n",
  c!"//\"dels\" \"^\" \"\" \"(dilz|s)\" \n",
  c!"//\"delS\" \"^\" \"\" \"(dilz|s)\" \n",
  c!"\"del\" \"^\" \"\" \"(dil|)\" \n",
  c!"\"dela\" \"^\" \"\" \"(dila|)\" \n",
  c!"//\"delo\" \"^\" \"\" \"(dila|)\" \n",
  c!"\"da\" \"^\" \"\" \"(da|)\" \n",
  c!"\"de\" \"^\" \"\" \"(di|)\" \n",
  c!"//\"des\" \"^\" \"\" \"(dis|dAs|)\" \n",
  c!"//\"di\" \"^\" \"\" \"(di|)\" \n",
  c!"//\"dos\" \"^\" \"\" \"(das|dus|)\" \n",
  c!"\n",
  c!"\"oa\" \"\" \"\" \"(va|a|D)\"\n",
  c!"\"oe\" \"\" \"\" \"(vi|D)\"\n",
  c!"\"ae\" \"\" \"\" \"D\"\n",
  c!"\n",
  c!"/// \"s\" \"\" \"$\" \"(s|)\" // Attia(s)\n",
  c!"/// \"C\" \"\" \"\" \"s\"  // \"c\" could actually be \"�\"\n",
  c!"\n",
  c!"\"n\" \"\" \"[bp]\" \"m\"\n",
  c!"\n",
  c!"\"h\" \"\" \"\" \"(|h|f)\" // sound \"h\" (absent) can be expressed via /x/, Cojab in Spanish = Kohab ; Hakim = Fakim\n",
  c!"\"x\" \"\" \"\" \"h\"\n",
  c!"\n",
  c!"// DIPHTHONGS ARE APPROXIMATELY equivalent\n",
  c!"\"aja\" \"^\" \"\" \"(Da|ia)\"                         \n",
  c!"\"aje\" \"^\" \"\" \"(Di|Da|i|ia)\"                         \n",
  c!"\"aji\" \"^\" \"\" \"(Di|i)\"                         \n",
  c!"\"ajo\" \"^\" \"\" \"(Du|Da|iu|ia)\"                         \n",
  c!"\"aju\" \"^\" \"\" \"(Du|iu)\"                         \n",
  c!"\n",
  c!"\"aj\" \"\" \"\" \"D\"                         \n",
  c!"\"ej\" \"\" \"\" \"D\"                         \n",
  c!"\"oj\" \"\" \"\" \"D\"                         \n",
  c!"\"uj\" \"\" \"\" \"D\"                         \n",
  c!"\"au\" \"\" \"\" \"D\"                         \n",
  c!"\"eu\" \"\" \"\" \"D\"                         \n",
  c!"\"ou\" \"\" \"\" \"D\"                         \n",
  c!"\n",
  c!"\"a\" \"^\" \"\" \"(a|)\"  // Arabic\n",
  c!"\n",
  c!"\"ja\" \"^\" \"\" \"ia\"                         \n",
  c!"\"je\" \"^\" \"\" \"i\"                         \n",
  c!"\"jo\" \"^\" \"\" \"(iu|ia)\"                         \n",
  c!"\"ju\" \"^\" \"\" \"iu\"                         \n",
  c!"\n",
  c!"\"ja\" \"\" \"\" \"a\"                         \n",
  c!"\"je\" \"\" \"\" \"i\"                         \n",
  c!"\"ji\" \"\" \"\" \"i\"                         \n",
  c!"\"jo\" \"\" \"\" \"u\"                         \n",
  c!"\"ju\" \"\" \"\" \"u\"                         \n",
  c!"\n",
  c!"\"j\" \"\" \"\" \"i\"                         \n",
  c!"\n",
  c!"// CONSONANTS {z & Z & dZ; s & S} are approximately interchangeable\n",
  c!"\"s\" \"\" \"[rmnl]\" \"z\"\n",
  c!"\"S\" \"\" \"[rmnl]\" \"z\"\n",
  c!"\"s\" \"[rmnl]\" \"\" \"z\"\n",
  c!"\"S\" \"[rmnl]\" \"\" \"z\" \n",
  c!"\n",
  c!"\"dS\" \"\" \"$\" \"S\"\n",
  c!"\"dZ\" \"\" \"$\" \"S\"\n",
  c!"\"Z\" \"\" \"$\" \"S\"\n",
  c!"\"S\" \"\" \"$\" \"(S|s)\"\n",
  c!"\"z\" \"\" \"$\" \"(S|s)\"\n",
  c!"\n",
  c!"\"S\" \"\" \"\" \"s\"\n"].flatten

/-- Lines 101 to 115 of `rules/bm/sep_approx_common.txt`. -/
def sepApproxCommonFile2 : Str := [
  c!"\"dZ\" \"\" \"\" \"z\"\n",
  c!"\"Z\" \"\" \"\" \"z\"\n",
  c!"\n",
  c!"\"i\" \"\" \"$\" \"(i|)\" // often in Arabic\n",
  c!"\"e\" \"\" \"\" \"i\"\n",
  c!"\n",
  c!"\"o\" \"\" \"$\" \"(a|u)\"\n",
  c!"\"o\" \"\" \"\" \"u\"\n",
  c!"\n",
  c!"// special character to deal correctly in Hebrew match\n",
  c!"\"B\" \"\" \"\" \"b\" \n",
  c!"\"V\" \"\" \"\" \"v\" \n",
  c!"\n",
  c!"// Arabic\n",
  c!"\"p\" \"^\" \"\" \"b\"\n"].flatten

/-- The contents of `rules/bm/sep_approx_common.txt`, `SEP_APPROX_COMMON` (rule.rs:460). -/
def sepApproxCommonFile : Str := sepApproxCommonFile1 ++ sepApproxCommonFile2

/-- The contents of `rules/bm/sep_exact_any.txt`, `SEP_EXACT_ANY` (rule.rs:461). -/
def sepExactAnyFile : Str := [
  c!"/*\n",
  c!" * Licensed to the Apache Software Foundation (ASF) under one or more\n",
  c!" * contributor license agreements.  See the NOTICE file distributed with\n",
  c!" * this work for additional information regarding copyright ownership.\n",
  c!" * The ASF licenses this file to You under the Apache License, Version 2.0\n",
  c!" * (the \"License\"); you may not use this file except in compliance with\n",
  c!" * the License.  You may obtain a copy of the License at\n",
  c!" *\n",
  c!" *      http://www.apache.org/licenses/LICENSE-2.0\n",
  c!" *\n",
  c!" * Unless required by applicable law or agreed to in writing, software\n",
  c!" * distributed under the License is distributed on an \"AS IS\" BASIS,\n",
  c!" * WITHOUT WARRANTIES OR CONDITIONS OF ANY KIND, either express or implied.\n",
  c!" * See the License for the specific language governing permissions and\n",
  c!" * limitations under the License.\n",
  c!" */\n",
  c!"\n",
  c!"\"E\" \"\" \"\" \"e\""].flatten

/-- The contents of `rules/bm/sep_exact_common.txt`, `SEP_EXACT_COMMON` (rule.rs:462). -/
def sepExactCommonFile : Str := [
  c!"/*\n",
  c!" * Licensed to the Apache Software Foundation (ASF) under one or more\n",
  c!" * contributor license agreements.  See the NOTICE file distributed with\n",
  c!" * this work for additional information regarding copyright ownership.\n",
  c!" * The ASF licenses this file to You under the Apache License, Version 2.0\n",
  c!" * (the \"License\"); you may not use this file except in compliance with\n",
  c!" * the License.  You may obtain a copy of the License at\n",
  c!" *\n",
  c!" *      http://www.apache.org/licenses/LICENSE-2.0\n",
  c!" *\n",
  c!" * Unless required by applicable law or agreed to in writing, software\n",
  c!" * distributed under the License is distributed on an \"AS IS\" BASIS,\n",
  c!" * WITHOUT WARRANTIES OR CONDITIONS OF ANY KIND, either express or implied.\n",
  c!" * See the License for the specific language governing permissions and\n",
  c!" * limitations under the License.\n",
  c!" */\n",
  c!"\n",
  c!"#include sep_exact_approx_common\n",
  c!"\n",
  c!"\"h\" \"\" \"\" \"\"\n",
  c!"//\"C\" \"\" \"\" \"k\"  // c that can actually be �\n",
  c!"\n",
  c!"// VOICED - UNVOICED CONSONANTS\n",
  c!"\"s\" \"[^t]\" \"[bgZd]\" \"z\"\n",
  c!"\"Z\" \"\" \"[pfkst]\" \"S\"\n",
  c!"\"Z\" \"\" \"$\" \"S\"\n",
  c!"\"S\" \"\" \"[bgzd]\" \"Z\"\n",
  c!"\"z\" \"\" \"$\" \"s\"\n",
  c!"\n",
  c!"//special character to deal correctly in Hebrew match\n",
  c!"\"B\" \"\" \"\" \"b\"\n",
  c!"\"V\" \"\" \"\" \"v\"\n"].flatten

/-- Lines 1 to 100 of `rules/bm/sep_rules_any.txt`. -/
def sepRulesAnyFile1 : Str := [
  c!"/*\n",
  c!" * Licensed to the Apache Software Foundation (ASF) under one or more\n",
  c!" * contributor license agreements.  See the NOTICE file distributed with\n",
  c!" * this work for additional information regarding copyright ownership.\n",
  c!" * The ASF licenses this file to You under the Apache License, Version 2.0\n",
  c!" * (the \"License\"); you may not use this file except in compliance with\n",
  c!" * the License.  You may obtain a copy of the License at\n",
  c!" *\n",
  c!" *      http://www.apache.org/licenses/LICENSE-2.0\n",
  c!" *\n",
  c!" * Unless required by applicable law or agreed to in writing, software\n",
  c!" * distributed under the License is distributed on an \"AS IS\" BASIS,\n",
  c!" * WITHOUT WARRANTIES OR CONDITIONS OF ANY KIND, either express or implied.\n",
  c!" * See the License for the specific language governing permissions and\n",
  c!" * limitations under the License.\n",
  c!" */\n",
  c!"\n",
  c!"// SEPHARDIC: INCORPORATES Portuguese + Italian + Spanish(+Catalan) + French\n",
  c!"\n",
  c!"// CONSONANTS\n",
  c!"\"ph\" \"\" \"\" \"f\" // foreign\n",
  c!"\"sh\" \"\" \"\" \"S\" // foreign\n",
  c!"\"kh\" \"\" \"\" \"x\" // foreign\n",
  c!"\n",
  c!"\"gli\" \"\" \"\" \"(gli|l[italian])\" \n",
  c!"\"gni\" \"\" \"\" \"(gni|ni[italian+french])\"\n",
  c!"\"gn\" \"\" \"[aeou]\" \"(n[italian+french]|nj[italian+french]|gn)\" \n",
  c!"\"gh\" \"\" \"\" \"g\" // It + translit. from Arabic\n",
  c!"\"dh\" \"\" \"\" \"d\" // translit. from Arabic\n",
  c!"\"bh\" \"\" \"\" \"b\" // translit. from Arabic\n",
  c!"\"th\" \"\" \"\" \"t\" // translit. from Arabic\n",
  c!"\"lh\" \"\" \"\" \"l\" // Port\n",
  c!"\"nh\" \"\" \"\" \"nj\" // Port\n",
  c!"\n",
  c!"\"ig\" \"[aeiou]\" \"\" \"(ig|tS[spanish])\"\n",
  c!"\"ix\" \"[aeiou]\" \"\" \"S\" // Sp\n",
  c!"\"tx\" \"\" \"\" \"tS\" // Sp\n",
  c!"\"tj\" \"\" \"$\" \"tS\" // Sp\n",
  c!"\"tj\" \"\" \"\" \"dZ\" // Sp\n",
  c!"\"tg\" \"\" \"\" \"(tg|dZ[spanish])\"\n",
  c!"\n",
  c!"\"gi\" \"\" \"[aeou]\" \"dZ\" // italian\n",
  c!"\"g\" \"\" \"y\" \"Z\" // french\n",
  c!"\"gg\" \"\" \"[ei]\" \"(gZ[portuguese+french]|dZ[italian+spanish]|x[spanish])\" \n",
  c!"\"g\" \"\" \"[ei]\" \"(Z[portuguese+french]|dZ[italian+spanish]|x[spanish])\" \n",
  c!"\n",
  c!"\"guy\" \"\" \"\" \"gi\"     \n",
  c!"\"gue\" \"\" \"$\" \"(k[french]|ge)\"\n",
  c!"\"gu\" \"\" \"[ei]\" \"(g|gv)\"     // not It\n",
  c!"\"gu\" \"\" \"[ao]\" \"gv\"  // not It  \n",
  c!"\n",
  c!"\"ñ\" \"\" \"\" \"(n|nj)\" \n",
  c!"\"ny\" \"\" \"\" \"nj\" \n",
  c!"\n",
  c!"\"sc\" \"\" \"[ei]\" \"(s|S[italian])\" \n",
  c!"\"sç\" \"\" \"[aeiou]\" \"s\" // not It\n",
  c!"\"ss\" \"\" \"\" \"s\"\n",
  c!"\"ç\" \"\" \"\" \"s\"   // not It\n",
  c!"\n",
  c!"\"ch\" \"\" \"[ei]\" \"(k[italian]|S[portuguese+french]|tS[spanish]|dZ[spanish])\" \n",
  c!"\"ch\" \"\" \"\" \"(S|tS[spanish]|dZ[spanish])\" \n",
  c!"\n",
  c!"\"ci\" \"\" \"[aeou]\" \"(tS[italian]|si)\" \n",
  c!"\"cc\" \"\" \"[eiyéèê]\" \"(tS[italian]|ks[portuguese+french+spanish])\" \n",
  c!"\"c\" \"\" \"[eiyéèê]\" \"(tS[italian]|s[portuguese+french+spanish])\" \n",
  c!"//\"c\" \"\" \"[aou]\" \"(k|C[portuguese+spanish])\" // \"C\" means that the actual letter could be \"ç\" (cedille omitted)\n",
  c!"\n",
  c!"\"s\" \"^\" \"\" \"s\"\n",
  c!"\"s\" \"[aáuiíoóeéêy]\" \"[aáuiíoóeéêy]\" \"(s[spanish]|z[portuguese+french+italian])\" \n",
  c!"\"s\" \"\" \"[dglmnrv]\" \"(z|Z[portuguese])\" \n",
  c!"\n",
  c!"\"z\" \"\" \"$\" \"(s|ts[italian]|S[portuguese])\" // ts It, s/S/Z Port, s in Sp, z Fr\n",
  c!"\"z\" \"\" \"[bdgv]\" \"(z|dz[italian]|Z[portuguese])\" // dz It, Z/z Port, z Sp & Fr\n",
  c!"\"z\" \"\" \"[ptckf]\" \"(s|ts[italian]|S[portuguese])\" // ts It, s/S/z Port, z/s Sp\n",
  c!"\"z\" \"\" \"\" \"(z|dz[italian]|ts[italian]|s[spanish])\" // ts/dz It, z Port & Fr, z/s Sp\n",
  c!"\n",
  c!"\"que\" \"\" \"$\" \"(k[french]|ke)\"\n",
  c!"\"qu\" \"\" \"[eiu]\" \"k\"    \n",
  c!"\"qu\" \"\" \"[ao]\" \"(kv|k)\" // k is It   \n",
  c!"\n",
  c!"\"ex\" \"\" \"[aáuiíoóeéêy]\" \"(ez[portuguese]|eS[portuguese]|eks|egz)\" \n",
  c!"\"ex\" \"\" \"[cs]\" \"(e[portuguese]|ek)\" \n",
  c!"\n",
  c!"\"m\" \"\" \"[cdglnrst]\" \"(m|n[portuguese])\" \n",
  c!"\"m\" \"\" \"[bfpv]\" \"(m|n[portuguese+spanish])\" \n",
  c!"\"m\" \"\" \"$\" \"(m|n[portuguese])\" \n",
  c!"\n",
  c!"\"b\" \"^\" \"\" \"(b|V[spanish])\" \n",
  c!"\"v\" \"^\" \"\" \"(v|B[spanish])\" \n",
  c!"\n",
  c!"// VOWELS   \n",
  c!"\"eau\" \"\" \"\" \"o\" // Fr\n",
  c!"\n",
  c!"\"ouh\" \"\" \"[aioe]\" \"(v[french]|uh)\"\n",
  c!"\"uh\" \"\" \"[aioe]\" \"(v|uh)\"\n",
  c!"\"ou\" \"\" \"[aioe]\" \"v\" // french\n",
  c!"\"uo\" \"\" \"\" \"(vo|o)\"\n",
  c!"\"u\" \"\" \"[aie]\" \"v\"\n",
  c!"\n",
  c!"\"i\" \"[aáuoóeéê]\" \"\" \"j\"\n"].flatten

/-- Lines 101 to 155 of `rules/bm/sep_rules_any.txt`. -/
def sepRulesAnyFile2 : Str := [
  c!"\"i\" \"\" \"[aeou]\" \"j\"\n",
  c!"\"y\" \"[aáuiíoóeéê]\" \"\" \"j\"\n",
  c!"\"y\" \"\" \"[aeiíou]\" \"j\"\n",
  c!"\"e\" \"\" \"$\" \"(e|E[french])\"\n",
  c!"\n",
  c!"\"ão\" \"\" \"\" \"(au|an)\" // Port\n",
  c!"\"ãe\" \"\" \"\" \"(aj|an)\" // Port\n",
  c!"\"ãi\" \"\" \"\" \"(aj|an)\" // Port\n",
  c!"\"õe\" \"\" \"\" \"(oj|on)\" // Port\n",
  c!"\"où\" \"\" \"\" \"u\" // Fr\n",
  c!"\"ou\" \"\" \"\" \"(ou|u[french])\" \n",
  c!"\n",
  c!"\"â\" \"\" \"\" \"a\" // Port & Fr\n",
  c!"\"à\" \"\" \"\" \"a\" // Port \n",
  c!"\"á\" \"\" \"\" \"a\" // Port & Sp\n",
  c!"\"ã\" \"\" \"\" \"(a|an)\" // Port\n",
  c!"\"é\" \"\" \"\" \"e\" \n",
  c!"\"ê\" \"\" \"\" \"e\" // Port & Fr\n",
  c!"\"è\" \"\" \"\" \"e\" // Sp & Fr & It\n",
  c!"\"í\" \"\" \"\" \"i\" // Port & Sp\n",
  c!"\"î\" \"\" \"\" \"i\" // Fr\n",
  c!"\"ô\" \"\" \"\" \"o\" // Port & Fr\n",
  c!"\"ó\" \"\" \"\" \"o\" // Port & Sp & It\n",
  c!"\"õ\" \"\" \"\" \"(o|on)\" // Port\n",
  c!"\"ò\" \"\" \"\" \"o\"  // Sp & It\n",
  c!"\"ú\" \"\" \"\" \"u\" // Port & Sp\n",
  c!"\"ü\" \"\" \"\" \"u\" // Port & Sp\n",
  c!"\n",
  c!"// LATIN ALPHABET     \n",
  c!"\"a\" \"\" \"\" \"a\"\n",
  c!"\"b\" \"\" \"\" \"(b|v[spanish])\" \n",
  c!"\"c\" \"\" \"\" \"k\"\n",
  c!"\"d\" \"\" \"\" \"d\"\n",
  c!"\"e\" \"\" \"\" \"e\"\n",
  c!"\"f\" \"\" \"\" \"f\"\n",
  c!"\"g\" \"\" \"\" \"g\"\n",
  c!"\"h\" \"\" \"\" \"h\" \n",
  c!"\"i\" \"\" \"\" \"i\"\n",
  c!"\"j\" \"\" \"\" \"(x[spanish]|Z)\" // not It\n",
  c!"\"k\" \"\" \"\" \"k\"\n",
  c!"\"l\" \"\" \"\" \"l\"\n",
  c!"\"m\" \"\" \"\" \"m\"\n",
  c!"\"n\" \"\" \"\" \"n\"\n",
  c!"\"o\" \"\" \"\" \"o\"\n",
  c!"\"p\" \"\" \"\" \"p\"\n",
  c!"\"q\" \"\" \"\" \"k\"    \n",
  c!"\"r\" \"\" \"\" \"r\"\n",
  c!"\"s\" \"\" \"\" \"(s|S[portuguese])\" \n",
  c!"\"t\" \"\" \"\" \"t\"\n",
  c!"\"u\" \"\" \"\" \"u\"\n",
  c!"\"v\" \"\" \"\" \"(v|b[spanish])\" \n",
  c!"\"w\" \"\" \"\" \"v\"    // foreign\n",
  c!"\"x\" \"\" \"\" \"(ks|gz|S[portuguese+spanish])\"   // S/ks Port & Sp, gz Sp, It only ks\n",
  c!"\"y\" \"\" \"\" \"i\"   \n",
  c!"\"z\" \"\" \"\" \"z\"\n"].flatten

/-- The contents of `rules/bm/sep_rules_any.txt`, `SEP_RULES_ANY` (rule.rs:463). -/
def sepRulesAnyFile : Str := sepRulesAnyFile1 ++ sepRulesAnyFile2

/-- `EMBEDDED_RULES` (rule.rs:466-487). -/
def embeddedRules : Assoc Str Str := [
  (c!"ash_exact_approx_common", ashExactApproxCommonFile),
  (c!"ash_approx_any", ashApproxAnyFile),
  (c!"ash_approx_common", ashApproxCommonFile),
  (c!"ash_exact_any", ashExactAnyFile),
  (c!"ash_exact_common", ashExactCommonFile),
  (c!"ash_rules_any", ashRulesAnyFile),
  (c!"gen_exact_approx_common", genExactApproxCommonFile),
  (c!"gen_approx_any", genApproxAnyFile),
  (c!"gen_approx_common", genApproxCommonFile),
  (c!"gen_exact_any", genExactAnyFile),
  (c!"gen_exact_common", genExactCommonFile),
  (c!"gen_rules_any", genRulesAnyFile),
  (c!"sep_exact_approx_common", sepExactApproxCommonFile),
  (c!"sep_approx_any", sepApproxAnyFile),
  (c!"sep_approx_common", sepApproxCommonFile),
  (c!"sep_exact_any", sepExactAnyFile),
  (c!"sep_exact_common", sepExactCommonFile),
  (c!"sep_rules_any", sepRulesAnyFile)]

/-- `Resolver::resolve` for the embedded rules (rule.rs:341-348). -/
def Resolver.embedded : Resolver := fun filename =>
  match embeddedRules.get? filename with
  | some content => .ok content
  | none => .error (.wrongFilename (c!"Missing embedded rule " ++ filename))

/-- `Default for Rules` (rule.rs:489-494): an error of `build_rules` panics.  `depth` bounds the nesting
of includes (see `parseRule`). -/
def defaultRules (U : Unicode) (R : RegexEngine) (depth : Nat) : Res Rules := do
  match ← buildRules U R .embedded depth defaultLanguages with
  | .error _ => .error .unwrap
  | .ok rules => return rules

/-- `Default for ConfigFiles`, derived (mod.rs:161, feature `embedded_bm`). -/
def ConfigFiles.default (U : Unicode) (R : RegexEngine) (depth : Nat) : Res ConfigFiles := do
  let rules ← defaultRules U R depth
  return { langs := defaultLangs, rules }

end BM
end Verif
