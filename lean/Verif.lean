import Verif.Model.Bit
import Verif.Model.Character
import Verif.Model.Class
import Verif.Model.Concurrent
import Verif.Model.Detail
import Verif.Model.Go
import Verif.Model.GoStr
import Verif.Model.Path
import Verif.Model.Phrase
import Verif.Model.Remark
import Verif.Model.Storage
import Verif.Model.Story
import Verif.Model.Unused
import Verif.Model.Word
import Verif.Spec.Alphabet
import Verif.Spec.Astray
import Verif.Spec.Catalogue
import Verif.Spec.Cold
import Verif.Spec.Concurrent
import Verif.Spec.Cost
import Verif.Spec.Found
import Verif.Spec.Growth
import Verif.Spec.History
import Verif.Spec.Layer
import Verif.Spec.Lexicon
import Verif.Spec.Machine
import Verif.Spec.Maimed
import Verif.Spec.Moody
import Verif.Spec.MoodyRace
import Verif.Spec.MoodyWarm
import Verif.Spec.Orphan
import Verif.Spec.Parts
import Verif.Spec.Race
import Verif.Spec.Replace
import Verif.Spec.Scribe
import Verif.Spec.Stray
import Verif.Spec.Text
import Verif.Spec.Warm
import Verif.Spec.Weak
import Verif.Proof.Accepted
import Verif.Proof.Alphabet
import Verif.Proof.Apart
import Verif.Proof.Api
import Verif.Proof.Astray
import Verif.Proof.AstrayCall
import Verif.Proof.BitNew
import Verif.Proof.Calls
import Verif.Proof.Catalogue
import Verif.Proof.CharWrite
import Verif.Proof.Charless
import Verif.Proof.CharlessReach
import Verif.Proof.Chars
import Verif.Proof.Codes
import Verif.Proof.Concurrent
import Verif.Proof.Cost
import Verif.Proof.Create
import Verif.Proof.DetailWrite
import Verif.Proof.Errs
import Verif.Proof.FactWrite
import Verif.Proof.Facts
import Verif.Proof.Fills
import Verif.Proof.Final
import Verif.Proof.Finish
import Verif.Proof.Found
import Verif.Proof.Fuel
import Verif.Proof.Growth
import Verif.Proof.Hist
import Verif.Proof.Inv
import Verif.Proof.Known
import Verif.Proof.Layer
import Verif.Proof.LexRel
import Verif.Proof.Loose
import Verif.Proof.Lost
import Verif.Proof.Machine
import Verif.Proof.Maimed
import Verif.Proof.MaimedReach
import Verif.Proof.Moody
import Verif.Proof.OneLetter
import Verif.Proof.Orphan
import Verif.Proof.Parts
import Verif.Proof.Path
import Verif.Proof.PhraseWrite
import Verif.Proof.Queries
import Verif.Proof.Quiet
import Verif.Proof.RaceAsk
import Verif.Proof.RaceChar
import Verif.Proof.RaceCold
import Verif.Proof.RaceInv
import Verif.Proof.RaceLive
import Verif.Proof.RaceMoody
import Verif.Proof.RaceMoodyWarm
import Verif.Proof.RaceNew
import Verif.Proof.RaceRead
import Verif.Proof.RaceRemark
import Verif.Proof.RaceSolo
import Verif.Proof.RaceStart
import Verif.Proof.RaceStep
import Verif.Proof.RaceSys
import Verif.Proof.RaceWarm
import Verif.Proof.RaceWeak
import Verif.Proof.RaceWord
import Verif.Proof.RaceWp
import Verif.Proof.Read
import Verif.Proof.RemarkWrite
import Verif.Proof.Reopen
import Verif.Proof.Replace
import Verif.Proof.Rules
import Verif.Proof.Runes
import Verif.Proof.Scribe
import Verif.Proof.Sound
import Verif.Proof.Stable
import Verif.Proof.Start
import Verif.Proof.Step
import Verif.Proof.Stray
import Verif.Proof.Strings
import Verif.Proof.Text
import Verif.Proof.Unused
import Verif.Proof.Uses
import Verif.Proof.Utf8
import Verif.Proof.Vain
import Verif.Proof.WordWrite
import Verif.Proof.Wp
import Verif.Proof.Write
import Verif.Props.C01
import Verif.Props.C02
import Verif.Props.C03
import Verif.Props.C04
import Verif.Props.C05
import Verif.Props.C06
import Verif.Props.C07
import Verif.Props.C08
import Verif.Props.C09
import Verif.Props.C10
import Verif.Props.C11
import Verif.Props.C12
import Verif.Props.C13
import Verif.Props.C14
import Verif.Props.C15
import Verif.Props.C16
import Verif.Props.C17
import Verif.Props.C18
import Verif.Props.C19
import Verif.Props.C20
import Verif.Props.C21
import Verif.Props.C22
import Verif.Props.C23
import Verif.Props.C24
import Verif.Props.C25
import Verif.Props.C26
import Verif.Props.C27
import Verif.Props.C28
import Verif.Props.C29
import Verif.Props.C30
import Verif.Props.C31
import Verif.Props.C32
import Verif.Props.C33
import Verif.Props.C34
import Verif.Props.C35
import Verif.Props.C36
import Verif.Props.C37
import Verif.Props.C38
import Verif.Props.C39
import Verif.Props.C40
import Verif.Props.C41
import Verif.Props.C42
import Verif.Props.C43
import Verif.Props.C44
import Verif.Props.C45
import Verif.Props.C46
import Verif.Props.C47
import Verif.Props.C48
import Verif.Props.C49
import Verif.Props.C50
import Verif.Props.C51
import Verif.Props.C52
import Verif.Props.C53
import Verif.Props.C54
import Verif.Props.C55
import Verif.Props.C56
import Verif.Props.C57
import Verif.Props.C58
import Verif.Props.C59
import Verif.Props.C60
import Verif.Props.C61
import Verif.Props.C62
import Verif.Props.C63
import Verif.Props.C64
import Verif.Props.C65
import Verif.Props.C66
import Verif.Props.C67
import Verif.Props.C68
import Verif.Props.C69
import Verif.Props.Sample
import Verif.Tests
