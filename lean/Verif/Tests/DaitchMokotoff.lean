import Verif.Model.DaitchMokotoffRules
/-!
# Conformance of the Daitch-Mokotoff model

The vectors of the unit tests of `src/daitch_mokotoff.rs`, checked by the kernel.  They are tests of the
model, not proofs of properties.
-/

namespace Verif.Tests
open DaitchMokotoff

/-- `encode` -/
def dmkEncode : List (Str × Str) := [
    (c!"AUERBACH", c!"097400"),
    (c!"OHRBACH", c!"097400"),
    (c!"LIPSHITZ", c!"874400"),
    (c!"LIPPSZYC", c!"874400"),
    (c!"LEWINSKY", c!"876450"),
    (c!"LEVINSKI", c!"876450"),
    (c!"SZLAMAWICZ", c!"486740"),
    (c!"SHLAMOVITZ", c!"486740"),
    (c!" \t\n\r Washington \t\n\r ", c!"746536"),
    (c!"Washington", c!"746536"),
    (c!"OBrien", c!"079600"),
    (c!"'OBrien", c!"079600"),
    (c!"O'Brien", c!"079600"),
    (c!"OB'rien", c!"079600"),
    (c!"OBr'ien", c!"079600"),
    (c!"OBri'en", c!"079600"),
    (c!"OBrie'n", c!"079600"),
    (c!"OBrien'", c!"079600"),
    (c!"KINGSMITH", c!"565463"),
    (c!"-KINGSMITH", c!"565463"),
    (c!"K-INGSMITH", c!"565463"),
    (c!"KI-NGSMITH", c!"565463"),
    (c!"KIN-GSMITH", c!"565463"),
    (c!"KING-SMITH", c!"565463"),
    (c!"KINGS-MITH", c!"565463"),
    (c!"KINGSM-ITH", c!"565463"),
    (c!"KINGSMI-TH", c!"565463"),
    (c!"KINGSMIT-H", c!"565463"),
    (c!"KINGSMITH-", c!"565463")]

/-- `soundex` -/
def dmkSoundex : List (Str × Str) := [
    (c!"Straßburg", c!"294795"),
    (c!"Strasburg", c!"294795"),
    (c!"Éregon", c!"095600"),
    (c!"Eregon", c!"095600"),
    (c!"AKSSOL", c!"054800"),
    (c!"GERSCHFELD", c!"547830|545783|594783|594578"),
    (c!"GOLDEN", c!"583600"),
    (c!"Alpert", c!"087930"),
    (c!"Breuer", c!"791900"),
    (c!"Haber", c!"579000"),
    (c!"Mannheim", c!"665600"),
    (c!"Mintz", c!"664000"),
    (c!"Topf", c!"370000"),
    (c!"Kleinmann", c!"586660"),
    (c!"Ben Aron", c!"769600"),
    (c!"AUERBACH", c!"097400|097500"),
    (c!"OHRBACH", c!"097400|097500"),
    (c!"LIPSHITZ", c!"874400"),
    (c!"LIPPSZYC", c!"874400|874500"),
    (c!"LEWINSKY", c!"876450"),
    (c!"LEVINSKI", c!"876450"),
    (c!"SZLAMAWICZ", c!"486740"),
    (c!"SHLAMOVITZ", c!"486740"),
    (c!"Ceniow", c!"467000|567000"),
    (c!"Tsenyuv", c!"467000"),
    (c!"Holubica", c!"587400|587500"),
    (c!"Golubitsa", c!"587400"),
    (c!"Przemysl", c!"746480|794648"),
    (c!"Pshemeshil", c!"746480"),
    (c!"Rosochowaciec", c!"944744|944745|944754|944755|945744|945745|945754|945755"),
    (c!"Rosokhovatsets", c!"945744"),
    (c!"Peters", c!"734000|739400"),
    (c!"Peterson", c!"734600|739460"),
    (c!"Moskowitz", c!"645740"),
    (c!"Moskovitz", c!"645740"),
    (c!"Jackson", c!"154600|145460|454600|445460"),
    (c!"Jackson-Jackson", c!"154654|154645|154644|145465|145464|454654|454645|454644|445465|445464"),
    (c!"ţamas", c!"364000|464000"),
    (c!"țamas", c!"364000|464000"),
    (c!"ţamas", c!"364000|464000"),
    (c!"țamas", c!"364000|464000"),
    (c!"ţamas", c!"364000|464000"),
    (c!"țamas", c!"364000|464000")]

example : dmkEncode.all (fun p => defaultEncoder.encode .latin1 p.1 == .ok p.2) = true := by
  decide +kernel

example : dmkSoundex.all (fun p => defaultEncoder.soundex .latin1 p.1 == .ok p.2) = true := by
  decide +kernel

/-- `test_custom_rule` and `test_without_ascii_folding` -/
def customRules : Str := [
  c!"/*\nThis\nis\na\nmultiline\ncomment\n */\n",
  c!"///\n",
  c!"// This is a single line comment.\n",
  c!"///\n",
  c!"à=a // You can put a one line comment at the end of a rule. This rule is for ASCII folding.\n",
  c!"/*\nThis rule convert the substring `sh` into\n - `0` if at the start of the word\n - an empty string if before a vowel\n - otherwise it does a branching with code `0` and code `1`\n */\n",
  c!"\"sh\" \"0\" \"\" \"0|1\""].flatten

example : ((Builder.withRules customRules).setAsciiFolding false).build =
    .ok (.ok ⟨false, [('s', [⟨c!"sh", [c!"0"], [c!""], [c!"0", c!"1"]⟩])], [('à', 'a')]⟩) := by
  decide +kernel

example : (Builder.withRules c!"This is wrong.").build =
    .ok (.error ⟨1, none, c!"This is wrong.", c!"Can't recognize line"⟩) := by decide +kernel

end Verif.Tests
