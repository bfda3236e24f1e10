import Verif.Model.Soundex
import Verif.Model.Cologne
import Verif.Model.Caverphone
import Verif.Model.Nysiis
import Verif.Model.MatchRating
import Verif.Model.Phonex
import Verif.Model.Metaphone
/-!
# Conformance tests of the model (tests, not proofs of properties)

The unit-test vectors of the repository's `#[cfg(test)]` modules, evaluated by the kernel on the
model with the concrete Unicode table.  Vectors with letters outside Latin-1 are left out.
-/

namespace Verif.Tests

abbrev U := Unicode.latin1

/-- soundex.rs, tests (default). -/
example : ([
  (c!"BARHAM", c!"B650"),
  (c!"BARONE", c!"B650"),
  (c!"BARRON", c!"B650"),
  (c!"BERNA", c!"B650"),
  (c!"BIRNEY", c!"B650"),
  (c!"BIRNIE", c!"B650"),
  (c!"BOOROM", c!"B650"),
  (c!"BOREN", c!"B650"),
  (c!"BORN", c!"B650"),
  (c!"BOURN", c!"B650"),
  (c!"BOURNE", c!"B650"),
  (c!"BOWRON", c!"B650"),
  (c!"BRAIN", c!"B650"),
  (c!"BRAME", c!"B650"),
  (c!"BRANN", c!"B650"),
  (c!"BRAUN", c!"B650"),
  (c!"BREEN", c!"B650"),
  (c!"BRIEN", c!"B650"),
  (c!"BRIM", c!"B650"),
  (c!"BRIMM", c!"B650"),
  (c!"BRINN", c!"B650"),
  (c!"BRION", c!"B650"),
  (c!"BROOM", c!"B650"),
  (c!"BROOME", c!"B650"),
  (c!"BROWN", c!"B650"),
  (c!"BROWNE", c!"B650"),
  (c!"BRUEN", c!"B650"),
  (c!"BRUHN", c!"B650"),
  (c!"BRUIN", c!"B650"),
  (c!"BRUMM", c!"B650"),
  (c!"BRUN", c!"B650"),
  (c!"BRUNO", c!"B650"),
  (c!"BRYAN", c!"B650"),
  (c!"BURIAN", c!"B650"),
  (c!"BURN", c!"B650"),
  (c!"BURNEY", c!"B650"),
  (c!"BYRAM", c!"B650"),
  (c!"BYRNE", c!"B650"),
  (c!"BYRON", c!"B650"),
  (c!"BYRUM", c!"B650")] : List (Str × Str)).all
  (fun p => decide (Soundex.encode U Soundex.default p.1 = .ok p.2)) = true := by decide +kernel

/-- soundex.rs, tests (default). -/
example : ([
  (c!"HOL>MES", c!"H452"),
  (c!"testing", c!"T235"),
  (c!"The", c!"T000"),
  (c!"quick", c!"Q200"),
  (c!"brown", c!"B650"),
  (c!"fox", c!"F200"),
  (c!"jumped", c!"J513"),
  (c!"over", c!"O160"),
  (c!"the", c!"T000"),
  (c!"lazy", c!"L200"),
  (c!"dogs", c!"D200"),
  (c!"Allricht", c!"A462"),
  (c!"Eberhard", c!"E166"),
  (c!"Engebrethson", c!"E521"),
  (c!"Heimbach", c!"H512"),
  (c!"Hanselmann", c!"H524"),
  (c!"Hildebrand", c!"H431"),
  (c!"Kavanagh", c!"K152"),
  (c!"Lind", c!"L530"),
  (c!"Lukaschowsky", c!"L222"),
  (c!"McDonnell", c!"M235"),
  (c!"McGee", c!"M200"),
  (c!"Opnian", c!"O155"),
  (c!"Oppenheimer", c!"O155"),
  (c!"Riedemanas", c!"R355"),
  (c!"Zita", c!"Z300"),
  (c!"Zitzmeinn", c!"Z325"),
  (c!"Washington", c!"W252"),
  (c!"Lee", c!"L000"),
  (c!"Gutierrez", c!"G362"),
  (c!"Pfister", c!"P236"),
  (c!"Jackson", c!"J250"),
  (c!"Tymczak", c!"T522"),
  (c!"VanDeusen", c!"V532"),
  (c!"HOLMES", c!"H452"),
  (c!"ADOMOMI", c!"A355"),
  (c!"VONDERLEHR", c!"V536"),
  (c!"BALL", c!"B400"),
  (c!"SHAW", c!"S000"),
  (c!"JACKSON", c!"J250")] : List (Str × Str)).all
  (fun p => decide (Soundex.encode U Soundex.default p.1 = .ok p.2)) = true := by decide +kernel

/-- soundex.rs, tests (default). -/
example : ([
  (c!"SCANLON", c!"S545"),
  (c!"SAINTJOHN", c!"S532"),
  (c!"OBrien", c!"O165"),
  (c!"'OBrien", c!"O165"),
  (c!"O'Brien", c!"O165"),
  (c!"OB'rien", c!"O165"),
  (c!"OBr'ien", c!"O165"),
  (c!"OBri'en", c!"O165"),
  (c!"OBrie'n", c!"O165"),
  (c!"OBrien'", c!"O165"),
  (c!"KINGSMITH", c!"K525"),
  (c!"-KINGSMITH", c!"K525"),
  (c!"K-INGSMITH", c!"K525"),
  (c!"KI-NGSMITH", c!"K525"),
  (c!"KIN-GSMITH", c!"K525"),
  (c!"KING-SMITH", c!"K525"),
  (c!"KINGS-MITH", c!"K525"),
  (c!"KINGSM-ITH", c!"K525"),
  (c!"KINGSMI-TH", c!"K525"),
  (c!"KINGSMIT-H", c!"K525"),
  (c!"KINGSMITH-", c!"K525"),
  (c!" \x09\n\x0d Washington \x09\n\x0d ", c!"W252"),
  (c!"Ashcraft", c!"A261"),
  (c!"Ashcroft", c!"A261"),
  (c!"yehudit", c!"Y330"),
  (c!"yhwdyt", c!"Y330"),
  (c!"BOOTHDAVIS", c!"B312"),
  (c!"BOOTH-DAVIS", c!"B312"),
  (c!"Sgler", c!"S460"),
  (c!"Swhgler", c!"S460"),
  (c!"SAILOR", c!"S460"),
  (c!"SALYER", c!"S460"),
  (c!"SAYLOR", c!"S460"),
  (c!"SCHALLER", c!"S460"),
  (c!"SCHELLER", c!"S460"),
  (c!"SCHILLER", c!"S460"),
  (c!"SCHOOLER", c!"S460"),
  (c!"SCHULER", c!"S460"),
  (c!"SCHUYLER", c!"S460"),
  (c!"SEILER", c!"S460")] : List (Str × Str)).all
  (fun p => decide (Soundex.encode U Soundex.default p.1 = .ok p.2)) = true := by decide +kernel

/-- soundex.rs, tests (default). -/
example : ([
  (c!"SEYLER", c!"S460"),
  (c!"SHOLAR", c!"S460"),
  (c!"SHULER", c!"S460"),
  (c!"SILAR", c!"S460"),
  (c!"SILER", c!"S460"),
  (c!"SILLER", c!"S460"),
  (c!"Smith", c!"S530"),
  (c!"Smythe", c!"S530"),
  (c!"Erickson", c!"E625"),
  (c!"Erikson", c!"E625"),
  (c!"Ericson", c!"E625"),
  (c!"Ericksen", c!"E625"),
  (c!"Ericsen", c!"E625"),
  (c!"Ann", c!"A500"),
  (c!"Andrew", c!"A536"),
  (c!"Janet", c!"J530"),
  (c!"Margaret", c!"M626"),
  (c!"Steven", c!"S315"),
  (c!"Michael", c!"M240"),
  (c!"Robert", c!"R163"),
  (c!"Laura", c!"L600"),
  (c!"Anne", c!"A500"),
  (c!"Rupert", c!"R163")] : List (Str × Str)).all
  (fun p => decide (Soundex.encode U Soundex.default p.1 = .ok p.2)) = true := by decide +kernel

/-- refined_soundex.rs, tests (default). -/
example : ([
  (c!"testing", c!"T6036084"),
  (c!"TESTING", c!"T6036084"),
  (c!"The", c!"T60"),
  (c!"quick", c!"Q503"),
  (c!"brown", c!"B1908"),
  (c!"fox", c!"F205"),
  (c!"jumped", c!"J408106"),
  (c!"over", c!"O0209"),
  (c!"the", c!"T60"),
  (c!"lazy", c!"L7050"),
  (c!"dogs", c!"D6043")] : List (Str × Str)).all
  (fun p => decide (RefinedSoundex.encode U RefinedSoundex.default p.1 = .ok p.2)) = true := by decide +kernel

/-- cologne.rs, tests (enc). -/
example : ([
  (c!"Aabjoe", c!"01"),
  (c!"Aaclan", c!"0856"),
  (c!"Aychlmajr", c!"04567"),
  (c!"a", c!"0"),
  (c!"e", c!"0"),
  (c!"i", c!"0"),
  (c!"o", c!"0"),
  (c!"u", c!"0"),
  (c!"ä", c!"0"),
  (c!"ö", c!"0"),
  (c!"ü", c!"0"),
  (c!"ß", c!"8"),
  (c!"aa", c!"0"),
  (c!"ha", c!"0"),
  (c!"h", c!""),
  (c!"aha", c!"0"),
  (c!"b", c!"1"),
  (c!"p", c!"1"),
  (c!"ph", c!"3"),
  (c!"f", c!"3"),
  (c!"v", c!"3"),
  (c!"w", c!"3"),
  (c!"g", c!"4"),
  (c!"k", c!"4"),
  (c!"q", c!"4"),
  (c!"x", c!"48"),
  (c!"ax", c!"048"),
  (c!"cx", c!"48"),
  (c!"l", c!"5"),
  (c!"cl", c!"45"),
  (c!"acl", c!"085"),
  (c!"mn", c!"6"),
  (c!"{mn}", c!"6"),
  (c!"r", c!"7"),
  (c!"mÜller", c!"657"),
  (c!"müller", c!"657"),
  (c!"schmidt", c!"862"),
  (c!"schneider", c!"8627"),
  (c!"fischer", c!"387"),
  (c!"weber", c!"317")] : List (Str × Str)).all
  (fun p => decide ((fun s => (.ok (Cologne.encode U s) : Res Str)) p.1 = .ok p.2)) = true := by decide +kernel

/-- cologne.rs, tests (enc). -/
example : ([
  (c!"wagner", c!"3467"),
  (c!"becker", c!"147"),
  (c!"hoffmann", c!"0366"),
  (c!"schÄfer", c!"837"),
  (c!"schäfer", c!"837"),
  (c!"Breschnew", c!"17863"),
  (c!"Wikipedia", c!"3412"),
  (c!"peter", c!"127"),
  (c!"pharma", c!"376"),
  (c!"mönchengladbach", c!"664645214"),
  (c!"deutsch", c!"28"),
  (c!"deutz", c!"28"),
  (c!"hamburg", c!"06174"),
  (c!"hannover", c!"0637"),
  (c!"christstollen", c!"478256"),
  (c!"Xanthippe", c!"48621"),
  (c!"Zacharias", c!"8478"),
  (c!"Holzbau", c!"0581"),
  (c!"matsch", c!"68"),
  (c!"matz", c!"68"),
  (c!"Arbeitsamt", c!"071862"),
  (c!"Eberhard", c!"01772"),
  (c!"Eberhardt", c!"01772"),
  (c!"Celsius", c!"8588"),
  (c!"Ace", c!"08"),
  (c!"shch", c!"84"),
  (c!"xch", c!"484"),
  (c!"heithabu", c!"021"),
  (c!"bergisch-gladbach", c!"174845214"),
  (c!"Müller-Lüdenscheidt", c!"65752682")] : List (Str × Str)).all
  (fun p => decide ((fun s => (.ok (Cologne.encode U s) : Res Str)) p.1 = .ok p.2)) = true := by decide +kernel

/-- cologne.rs, tests (eq). -/
example : ([
  (c!"Muller", c!"Müller"),
  (c!"Meyer", c!"Mayr"),
  (c!"house", c!"house"),
  (c!"House", c!"house"),
  (c!"Haus", c!"house"),
  (c!"ganz", c!"Gans"),
  (c!"ganz", c!"Gänse"),
  (c!"Miyagi", c!"Miyako")] : List (Str × Str)).all
  (fun p => decide (isEncodedEquals (fun s => (.ok (Cologne.encode U s) : Res Str)) p.1 p.2 = .ok true)) = true := by decide +kernel

/-- caverphone.rs, tests (1). -/
example : ([
  (c!"add", c!"AT1111"),
  (c!"aid", c!"AT1111"),
  (c!"at", c!"AT1111"),
  (c!"art", c!"AT1111"),
  (c!"eat", c!"AT1111"),
  (c!"earth", c!"AT1111"),
  (c!"head", c!"AT1111"),
  (c!"hit", c!"AT1111"),
  (c!"hot", c!"AT1111"),
  (c!"hold", c!"AT1111"),
  (c!"hard", c!"AT1111"),
  (c!"heart", c!"AT1111"),
  (c!"it", c!"AT1111"),
  (c!"out", c!"AT1111"),
  (c!"old", c!"AT1111"),
  (c!"mb", c!"M11111"),
  (c!"mbmb", c!"MPM111"),
  (c!"David", c!"TFT111"),
  (c!"Whittle", c!"WTL111"),
  (c!"Lee", c!"L11111"),
  (c!"Thompson", c!"TMPSN1")] : List (Str × Str)).all
  (fun p => decide (Caverphone1.encode U p.1 = .ok p.2)) = true := by decide +kernel

/-- caverphone.rs, tests (2). -/
example : ([
  (c!"add", c!"AT11111111"),
  (c!"aid", c!"AT11111111"),
  (c!"at", c!"AT11111111"),
  (c!"art", c!"AT11111111"),
  (c!"eat", c!"AT11111111"),
  (c!"earth", c!"AT11111111"),
  (c!"head", c!"AT11111111"),
  (c!"hit", c!"AT11111111"),
  (c!"hot", c!"AT11111111"),
  (c!"hold", c!"AT11111111"),
  (c!"hard", c!"AT11111111"),
  (c!"heart", c!"AT11111111"),
  (c!"it", c!"AT11111111"),
  (c!"out", c!"AT11111111"),
  (c!"old", c!"AT11111111"),
  (c!"Stevenson", c!"STFNSN1111"),
  (c!"Peter", c!"PTA1111111"),
  (c!"rather", c!"RTA1111111"),
  (c!"ready", c!"RTA1111111"),
  (c!"writer", c!"RTA1111111"),
  (c!"social", c!"SSA1111111"),
  (c!"able", c!"APA1111111"),
  (c!"appear", c!"APA1111111"),
  (c!"mb", c!"M111111111"),
  (c!"mbmb", c!"MPM1111111"),
  (c!"Tedder", c!"TTA1111111"),
  (c!"Karleen", c!"KLN1111111"),
  (c!"Dyun", c!"TN11111111")] : List (Str × Str)).all
  (fun p => decide (Caverphone2.encode U p.1 = .ok p.2)) = true := by decide +kernel

/-- nysiis.rs, tests (true). -/
example : ([
  (c!"Brian", c!"BRAN"),
  (c!"Brown", c!"BRAN"),
  (c!"Brun", c!"BRAN"),
  (c!"Capp", c!"CAP"),
  (c!"Cope", c!"CAP"),
  (c!"Copp", c!"CAP"),
  (c!"Kipp", c!"CAP"),
  (c!"Dent", c!"DAD"),
  (c!"Dane", c!"DAN"),
  (c!"Dean", c!"DAN"),
  (c!"Dionne", c!"DAN"),
  (c!"Phil", c!"FAL"),
  (c!"Schmidt", c!"SNAD"),
  (c!"Smith", c!"SNAT"),
  (c!"Schmit", c!"SNAT"),
  (c!"Kobwick", c!"CABWAC"),
  (c!"Trueman", c!"TRANAN"),
  (c!"Truman", c!"TRANAN")] : List (Str × Str)).all
  (fun p => decide (Nysiis.encode U ⟨true⟩ p.1 = .ok p.2)) = true := by decide +kernel

/-- nysiis.rs, tests (false). -/
example : ([
  (c!"MACINTOSH", c!"MCANT"),
  (c!"KNUTH", c!"NAT"),
  (c!"KOEHN", c!"CAN"),
  (c!"PHILLIPSON", c!"FALAPSAN"),
  (c!"PFEISTER", c!"FASTAR"),
  (c!"SCHOENHOEFT", c!"SANAFT"),
  (c!"MCKEE", c!"MCY"),
  (c!"MACKIE", c!"MCY"),
  (c!"HEITSCHMIDT", c!"HATSNAD"),
  (c!"BART", c!"BAD"),
  (c!"HURD", c!"HAD"),
  (c!"HUNT", c!"HAD"),
  (c!"WESTERLUND", c!"WASTARLAD"),
  (c!"CASSTEVENS", c!"CASTAFAN"),
  (c!"VASQUEZ", c!"VASG"),
  (c!"FRAZIER", c!"FRASAR"),
  (c!"BOWMAN", c!"BANAN"),
  (c!"MCKNIGHT", c!"MCNAGT"),
  (c!"RICKERT", c!"RACAD"),
  (c!"DEUTSCH", c!"DAT"),
  (c!"WESTPHAL", c!"WASTFAL"),
  (c!"SHRIVER", c!"SRAVAR"),
  (c!"KUHL", c!"CAL"),
  (c!"RAWSON", c!"RASAN"),
  (c!"JILES", c!"JAL"),
  (c!"CARRAWAY", c!"CARY"),
  (c!"YAMADA", c!"YANAD"),
  (c!"O'Daniel", c!"ODANAL"),
  (c!"O'Donnel", c!"ODANAL"),
  (c!"Cory", c!"CARY"),
  (c!"Corey", c!"CARY"),
  (c!"Kory", c!"CARY"),
  (c!"FUZZY", c!"FASY"),
  (c!"MACX", c!"MCX"),
  (c!"KNX", c!"NX"),
  (c!"KX", c!"CX"),
  (c!"PHX", c!"FX"),
  (c!"PFX", c!"FX"),
  (c!"SCHX", c!"SX"),
  (c!"XEE", c!"XY")] : List (Str × Str)).all
  (fun p => decide (Nysiis.encode U ⟨false⟩ p.1 = .ok p.2)) = true := by decide +kernel

/-- nysiis.rs, tests (false). -/
example : ([
  (c!"XIE", c!"XY"),
  (c!"XDT", c!"XD"),
  (c!"XRT", c!"XD"),
  (c!"XRD", c!"XD"),
  (c!"XNT", c!"XD"),
  (c!"XND", c!"XD"),
  (c!"XEV", c!"XAF"),
  (c!"XAX", c!"XAX"),
  (c!"XEX", c!"XAX"),
  (c!"XIX", c!"XAX"),
  (c!"XOX", c!"XAX"),
  (c!"XUX", c!"XAX"),
  (c!"XQ", c!"XG"),
  (c!"XZ", c!"X"),
  (c!"XM", c!"XN"),
  (c!"XS", c!"X"),
  (c!"XSS", c!"X"),
  (c!"XAY", c!"XY"),
  (c!"XAYS", c!"XY"),
  (c!"XA", c!"X"),
  (c!"XAS", c!"X")] : List (Str × Str)).all
  (fun p => decide (Nysiis.encode U ⟨false⟩ p.1 = .ok p.2)) = true := by decide +kernel

/-- match_rating_approach.rs, tests (enc). -/
example : ([
  (c!"HARPER", c!"HRPR"),
  (c!"Smith", c!"SMTH"),
  (c!"Smyth", c!"SMYTH"),
  (c!" ", c!""),
  (c!"", c!""),
  (c!"E", c!"")] : List (Str × Str)).all
  (fun p => decide (MatchRating.encode U p.1 = .ok p.2)) = true := by decide +kernel

/-- match_rating_approach.rs, tests (eq). -/
example : ([
  (c!"test", c!"", false),
  (c!"", c!"test", false),
  (c!"test", c!" ", false),
  (c!" ", c!"test", false),
  (c!"t", c!"test", false),
  (c!"test", c!"t", false),
  (c!"John", c!"John", true),
  (c!"smith", c!"smyth", true),
  (c!"Burns", c!"Bourne", true),
  (c!"Al", c!"Ed", false),
  (c!"Catherine", c!"Kathryn", true),
  (c!"Brian", c!"Bryan", true),
  (c!"Séan", c!"Shaun", true),
  (c!"Cólm", c!"C-olín", true),
  (c!"Stephen", c!"Steven", true),
  (c!"Steven", c!"Stefan", true),
  (c!"Stephen", c!"Stefan", true),
  (c!"Sam", c!"Samuel", true),
  (c!"Micky", c!"Michael", true),
  (c!"Oona", c!"Oonagh", true),
  (c!"Sophie", c!"Sofia", true),
  (c!"Franciszek", c!"Frances", true),
  (c!"Tomasz", c!"tom", true),
  (c!"Kl", c!"Karl", true),
  (c!"Karl", c!"C", false),
  (c!"Zach", c!"Zacharia", true),
  (c!"Karl", c!"Alessandro", false),
  (c!"Úna", c!"Oonagh", false),
  (c!"O'Sullivan", c!"Ó ' Súilleabháin", true),
  (c!"Moriarty", c!"OMuircheartaigh", false),
  (c!"o'muireadhaigh", c!"Ó 'Muircheartaigh ", true),
  (c!"Cooper-Flynn", c!"Super-Lyn", true),
  (c!"Hailey", c!"Halley", true),
  (c!"Auerbach", c!"Uhrbach", true),
  (c!"Moskowitz", c!"Moskovitz", true),
  (c!"LIPSHITZ", c!"LIPPSZYC", true),
  (c!"LEWINSKY", c!"LEVINSKI", true),
  (c!"SZLAMAWICZ", c!"SHLAMOVITZ", true),
  (c!"R o s o ch o w a c ie c", c!" R o s o k ho v a ts e ts", true),
  (c!" P rz e m y s l", c!" P sh e m e sh i l", true)] : List (Str × Str × Bool)).all
  (fun p => decide (MatchRating.isEncodedEquals U p.1 p.2.1 = .ok p.2.2)) = true := by decide +kernel

/-- match_rating_approach.rs, tests (eq). -/
example : ([
  (c!"Peterson", c!"Peters", true),
  (c!"McGowan", c!"Mc Geoghegan", true),
  (c!"Murphy", c!" ", false),
  (c!"Murphy", c!"", false),
  (c!"Murphy", c!"Lynch", false),
  (c!"Sean", c!"John", true),
  (c!"Sean", c!"Pete", false)] : List (Str × Str × Bool)).all
  (fun p => decide (MatchRating.isEncodedEquals U p.1 p.2.1 = .ok p.2.2)) = true := by decide +kernel

/-- metaphone.rs, tests (some 4). -/
example : ([
  (c!"howl", c!"HL"),
  (c!"testing", c!"TSTN"),
  (c!"The", c!"0"),
  (c!"quick", c!"KK"),
  (c!"brown", c!"BRN"),
  (c!"fox", c!"FKS"),
  (c!"jumped", c!"JMPT"),
  (c!"over", c!"OFR"),
  (c!"the", c!"0"),
  (c!"lazy", c!"LS"),
  (c!"dogs", c!"TKS"),
  (c!"COMB", c!"KM"),
  (c!"TOMB", c!"TM"),
  (c!"WOMB", c!"WM"),
  (c!"SCIENCE", c!"SNS"),
  (c!"SCENE", c!"SN"),
  (c!"SCY", c!"S"),
  (c!"SASH", c!"SX"),
  (c!"SASHA", c!"SX"),
  (c!"WHY", c!""),
  (c!"CIAPO", c!"XP"),
  (c!"SCHEDULE", c!"SKTL"),
  (c!"SCHEMATIC", c!"SKMT"),
  (c!"CHARACTER", c!"KRKT"),
  (c!"TEACH", c!"TX"),
  (c!"DODGY", c!"TJ"),
  (c!"DODGE", c!"TJ"),
  (c!"ADGIEMTI", c!"AJMT"),
  (c!"GHENT", c!"KNT"),
  (c!"BAUGH", c!"B"),
  (c!"GNU", c!"N"),
  (c!"SIGNED", c!"SNT"),
  (c!"PHISH", c!"FX"),
  (c!"SHOT", c!"XT"),
  (c!"ODSIAN", c!"OTXN"),
  (c!"PULSION", c!"PLXN"),
  (c!"OTIA", c!"OX"),
  (c!"PORTION", c!"PRXN"),
  (c!"RETCH", c!"RX"),
  (c!"WATCH", c!"WX")] : List (Str × Str)).all
  (fun p => decide (Metaphone.encode U ⟨some 4⟩ p.1 = .ok p.2)) = true := by decide +kernel

/-- metaphone.rs, tests (some 4). -/
example : ([
  (c!"AXEAXE", c!"AKSK")] : List (Str × Str)).all
  (fun p => decide (Metaphone.encode U ⟨some 4⟩ p.1 = .ok p.2)) = true := by decide +kernel

/-- metaphone.rs, tests (some 6). -/
example : ([
  (c!"AXEAXEAXE", c!"AKSKSK")] : List (Str × Str)).all
  (fun p => decide (Metaphone.encode U ⟨some 6⟩ p.1 = .ok p.2)) = true := by decide +kernel

/-- metaphone.rs, tests (none). -/
example : ([
  (c!"ALLERTON", c!"ALRTN"),
  (c!"synchronization", c!"SNXRNSXN")] : List (Str × Str)).all
  (fun p => decide (Metaphone.encode U ⟨none⟩ p.1 = .ok p.2)) = true := by decide +kernel

/-- phonex.rs, tests (4). -/
example : ([
  (c!"123 testsss", c!"T230"),
  (c!"24/7 test", c!"T230"),
  (c!"A", c!"A000"),
  (c!"Ashcraft", c!"A261"),
  (c!"Lee", c!"L000"),
  (c!"Kuhne", c!"C500"),
  (c!"Meyer-Lansky", c!"M452"),
  (c!"Oepping", c!"A150"),
  (c!"Daley", c!"D400"),
  (c!"Dalitz", c!"D432"),
  (c!"Duhlitz", c!"D432"),
  (c!"Dull", c!"D400"),
  (c!"De Ledes", c!"D430"),
  (c!"Sandemann", c!"S500"),
  (c!"Schmidt", c!"S530"),
  (c!"Sinatra", c!"S536"),
  (c!"Heinrich", c!"A562"),
  (c!"Hammerschlag", c!"A524"),
  (c!"Williams", c!"W450"),
  (c!"Wilms", c!"W500"),
  (c!"Wilson", c!"W250"),
  (c!"Worms", c!"W500"),
  (c!"Zedlitz", c!"S343"),
  (c!"Zotteldecke", c!"S320"),
  (c!"ZYX test", c!"S232"),
  (c!"Scherman", c!"S500"),
  (c!"Schurman", c!"S500"),
  (c!"Sherman", c!"S500"),
  (c!"Shermansss", c!"S500"),
  (c!"Shireman", c!"S650"),
  (c!"Shurman", c!"S500"),
  (c!"Euler", c!"A460"),
  (c!"Ellery", c!"A460"),
  (c!"Hilbert", c!"A130"),
  (c!"Heilbronn", c!"A165"),
  (c!"Gauss", c!"G000"),
  (c!"Ghosh", c!"G200"),
  (c!"Knuth", c!"N300"),
  (c!"Kant", c!"C530"),
  (c!"Lloyd", c!"L430")] : List (Str × Str)).all
  (fun p => decide (Phonex.encode U ⟨4⟩ p.1 = .ok p.2)) = true := by decide +kernel

/-- phonex.rs, tests (4). -/
example : ([
  (c!"Ladd", c!"L300"),
  (c!"Lukasiewicz", c!"L200"),
  (c!"Lissajous", c!"L200"),
  (c!"Philip", c!"F410"),
  (c!"Fripp", c!"F610"),
  (c!"Czarkowska", c!"C200"),
  (c!"Hornblower", c!"A514"),
  (c!"Looser", c!"L260"),
  (c!"Wright", c!"R623"),
  (c!"Phonic", c!"F520"),
  (c!"Quickening", c!"C250"),
  (c!"Kuickening", c!"C250"),
  (c!"Joben", c!"G150"),
  (c!"Zelda", c!"S300"),
  (c!"123456789", c!"0000"),
  (c!"", c!"0000")] : List (Str × Str)).all
  (fun p => decide (Phonex.encode U ⟨4⟩ p.1 = .ok p.2)) = true := by decide +kernel

end Verif.Tests
