import Verif.Basic
import Verif.Model.BMEmbedded
import Verif.Model.BMEngine
import Verif.Model.BMLang
import Verif.Model.BMLanguages
import Verif.Model.BMPath
import Verif.Model.BMRegex
import Verif.Model.BMRule
import Verif.Model.Caverphone
import Verif.Model.CharSequence
import Verif.Model.Cologne
import Verif.Model.DaitchMokotoff
import Verif.Model.DaitchMokotoffRules
import Verif.Model.Display
import Verif.Model.DoubleMetaphone
import Verif.Model.Lib
import Verif.Model.MatchRating
import Verif.Model.Metaphone
import Verif.Model.Nysiis
import Verif.Model.Order
import Verif.Model.OrderEncoders
import Verif.Model.Phonex
import Verif.Model.RulesParser
import Verif.Model.Soundex
import Verif.Model.Stored
import Verif.Spec.BMConfig
import Verif.Spec.BMEmbedded
import Verif.Spec.BMEmbeddedTable
import Verif.Spec.BMEncode
import Verif.Spec.BMEngine
import Verif.Spec.BMFiles
import Verif.Spec.BMLanguages
import Verif.Spec.BMLayout
import Verif.Spec.BMPieces
import Verif.Spec.BMRegex
import Verif.Spec.Caverphone
import Verif.Spec.Codes
import Verif.Spec.Cologne
import Verif.Spec.Common
import Verif.Spec.Counting
import Verif.Spec.DaitchMokotoff
import Verif.Spec.DaitchMokotoffTable
import Verif.Spec.DoubleMetaphone
import Verif.Spec.Doubled
import Verif.Spec.FirstCharacter
import Verif.Spec.Interchange
import Verif.Spec.MatchRating
import Verif.Spec.Metaphone
import Verif.Spec.Nysiis
import Verif.Spec.OneCode
import Verif.Spec.Orders
import Verif.Spec.Parts
import Verif.Spec.Phonex
import Verif.Spec.Rules
import Verif.Spec.Settings
import Verif.Spec.Soundex
import Verif.Spec.Stored
import Verif.Spec.Swapped
import Verif.Spec.Together
import Verif.Spec.Undivided
import Verif.Proofs.BMConfig
import Verif.Proofs.BMConfigIff
import Verif.Proofs.BMEmbedded
import Verif.Proofs.BMEncode
import Verif.Proofs.BMEngine
import Verif.Proofs.BMFiles
import Verif.Proofs.BMLangFile
import Verif.Proofs.BMLoad
import Verif.Proofs.BMPhonemeExpr
import Verif.Proofs.BMPhonemes
import Verif.Proofs.BMRuleFile
import Verif.Proofs.BMSets
import Verif.Proofs.BMTransfer
import Verif.Proofs.Caverphone
import Verif.Proofs.CaverphoneCode
import Verif.Proofs.CaverphoneCompact
import Verif.Proofs.CaverphoneConsonants
import Verif.Proofs.CaverphoneLate
import Verif.Proofs.CaverphonePrefixes
import Verif.Proofs.CaverphoneSound
import Verif.Proofs.CaverphoneSpec
import Verif.Proofs.CaverphoneText
import Verif.Proofs.CaverphoneVowels
import Verif.Proofs.Common
import Verif.Proofs.DaitchMokotoff
import Verif.Proofs.DaitchMokotoffAny
import Verif.Proofs.DaitchMokotoffEncode
import Verif.Proofs.DaitchMokotoffRepeat
import Verif.Proofs.DoubleMetaphone
import Verif.Proofs.DoubleMetaphonePanics
import Verif.Proofs.DoubleMetaphoneReturns
import Verif.Proofs.DoubleMetaphoneSpec
import Verif.Proofs.DoubleMetaphoneUnicode
import Verif.Proofs.DoubledCaverphone
import Verif.Proofs.DoubledDaitchMokotoff
import Verif.Proofs.DoubledMetaphone
import Verif.Proofs.DoubledNysiis
import Verif.Proofs.DoubledPhonex
import Verif.Proofs.Interchange
import Verif.Proofs.Parser
import Verif.Proofs.Replace
import Verif.Proofs.Res
import Verif.Proofs.Soundex
import Verif.Proofs.Str
import Verif.Props.Again
import Verif.Props.BMConcat
import Verif.Props.BMEmbedded
import Verif.Props.BMEmbeddedRules
import Verif.Props.BMEncode
import Verif.Props.BMFiles
import Verif.Props.BMLanguages
import Verif.Props.BMLayout
import Verif.Props.BMListing
import Verif.Props.BMMax
import Verif.Props.BMPath
import Verif.Props.BMPieces
import Verif.Props.BMRegex
import Verif.Props.BMText
import Verif.Props.BeginningCaverphone
import Verif.Props.BeginningDoubleMetaphone
import Verif.Props.BeginningMetaphone
import Verif.Props.BeginningNysiis
import Verif.Props.BeginningPhonex
import Verif.Props.Builders
import Verif.Props.Caverphone
import Verif.Props.CaverphoneSpec
import Verif.Props.CharSequence
import Verif.Props.CharSequenceSlices
import Verif.Props.Coarser
import Verif.Props.CodesCaverphone
import Verif.Props.CodesDaitchMokotoff
import Verif.Props.CodesDoubleMetaphone
import Verif.Props.CodesMatchRating
import Verif.Props.CodesMetaphone
import Verif.Props.CodesNysiis
import Verif.Props.CodesPhonex
import Verif.Props.CodesSoundex
import Verif.Props.Cologne
import Verif.Props.Cuts
import Verif.Props.DaitchMokotoff
import Verif.Props.DaitchMokotoffChoices
import Verif.Props.DaitchMokotoffOrder
import Verif.Props.DaitchMokotoffTable
import Verif.Props.Display
import Verif.Props.DoubleMetaphone
import Verif.Props.DoubleMetaphonePanics
import Verif.Props.DoubleMetaphoneReturns
import Verif.Props.DoubleMetaphoneSpec
import Verif.Props.DoubleMetaphoneUnicode
import Verif.Props.Doubled
import Verif.Props.Extends
import Verif.Props.FirstCharacter
import Verif.Props.FirstCharacterDaitchMokotoff
import Verif.Props.FirstCharacterDoubleMetaphone
import Verif.Props.FirstCharacterEnglish
import Verif.Props.Heard
import Verif.Props.HeardDaitchMokotoff
import Verif.Props.HeardDoubleMetaphone
import Verif.Props.HeardEnglish
import Verif.Props.HeardSharp
import Verif.Props.HowMany
import Verif.Props.Interchange
import Verif.Props.Lengths
import Verif.Props.Letters
import Verif.Props.LettersDaitchMokotoff
import Verif.Props.MatchRating
import Verif.Props.Metaphone
import Verif.Props.MetaphoneUnicode
import Verif.Props.Nysiis
import Verif.Props.Omitted
import Verif.Props.OneCode
import Verif.Props.OrderEncoders
import Verif.Props.Orders
import Verif.Props.Parts
import Verif.Props.PartsMetaphone
import Verif.Props.PartsSoundex
import Verif.Props.Phonex
import Verif.Props.RulesParser
import Verif.Props.Settings
import Verif.Props.Similar
import Verif.Props.Soundex
import Verif.Props.Stored
import Verif.Props.Swapped
import Verif.Props.SwappedCaverphone
import Verif.Props.Tables
import Verif.Props.Together
import Verif.Props.Typos
import Verif.Tests.BeiderMorse
import Verif.Tests.DaitchMokotoff
import Verif.Tests.DoubleMetaphone
import Verif.Tests.Simple
