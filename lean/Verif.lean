import Verif.Props.Types
import Verif.Props.Conversions
import Verif.Props.Messages
import Verif.Props.Macro
import Verif.Props.Constructors
import Verif.Props.Frame
import Verif.Props.Certificate
import Verif.Props.NoiseSession
import Verif.Props.NoiseHandshake
import Verif.Props.NoiseTransport
import Verif.Props.NoiseKeys
import Verif.Props.Network
import Verif.Props.ExampleSetup
import Verif.Props.ExampleHandshake
import Verif.Props.EncryptorHistory
import Verif.Props.Errors
import Verif.Props.Rfc
import Verif.Props.NoiseUnused
import Verif.Props.Authority
import Verif.Props.RepoTests
import Verif.Props.Tables
import Verif.Props.Stream
import Verif.Props.Stack
import Verif.Props.Dalek
import Verif.Props.Fuzz
import Verif.Props.StreamMacro
import Verif.Props.NoiseEphemeral
import Verif.Props.ChannelIds
import Verif.Props.Programs
import Verif.Props.HandshakeProgram
import Verif.Props.Authentication
import Verif.Props.AuthenticationRfc
import Verif.Props.EncryptorData
import Verif.Props.Config
import Verif.Props.Channels
import Verif.Props.NoiseSecrets
import Verif.Props.Width
import Verif.Model.OpenPrograms
import Verif.Props.OpenPrograms
import Verif.Props.Roles
import Verif.Props.Secrecy
import Verif.Props.Integrity
import Verif.Props.Rekey
import Verif.Props.Ideal
import Verif.Spec.Impersonation
import Verif.Props.Impersonation
import Verif.Spec.Channel
import Verif.Props.Channel
import Verif.Spec.Crowd
import Verif.Props.Crowd
import Verif.Spec.Retry
import Verif.Props.Retry
import Verif.Spec.Reread
import Verif.Props.Reread
import Verif.Spec.Writers
import Verif.Props.Writers
import Verif.Spec.Insistence
import Verif.Lemmas.Insistence
import Verif.Props.Insistence
import Verif.Spec.Connection
import Verif.Lemmas.Connection
import Verif.Props.Connection
import Verif.Spec.Oracle
import Verif.Lemmas.Oracle
import Verif.Lemmas.OracleRun
import Verif.Lemmas.OracleEnd
import Verif.Props.Oracle
import Verif.Spec.Outsider
import Verif.Lemmas.Veil
import Verif.Lemmas.VeilNet
import Verif.Lemmas.VeilRun
import Verif.Lemmas.VeilTalk
import Verif.Lemmas.VeilEnd
import Verif.Props.Outsider
import Verif.Lemmas.VeilSame
import Verif.Lemmas.VeilHide
import Verif.Spec.Eavesdrop
import Verif.Lemmas.VeilEar
import Verif.Props.Eavesdrop
import Verif.Spec.Forward
import Verif.Lemmas.Long
import Verif.Lemmas.Distant
import Verif.Lemmas.DistantRun
import Verif.Props.Forward
import Verif.Spec.Stolen
import Verif.Lemmas.Stolen
import Verif.Props.Stolen
import Verif.Spec.Incognito
import Verif.Lemmas.Incognito
import Verif.Props.Incognito
import Verif.Model.Noise.Build
import Verif.Props.Builds
import Verif.Spec.Intruder
import Verif.Lemmas.Intruder
import Verif.Props.Intruder
import Verif.Spec.Renewal
import Verif.Lemmas.Renewal
import Verif.Props.Renewal
import Verif.Lemmas.Renewed
import Verif.Props.Renewed
import Verif.Lemmas.Onward
import Verif.Lemmas.OnwardTalk
import Verif.Props.Onward
import Verif.Spec.Snoop
import Verif.Lemmas.Snoop
import Verif.Props.Snoop
import Verif.Spec.Tap
import Verif.Lemmas.TapCount
import Verif.Lemmas.Tap
import Verif.Props.Tap
import Verif.Spec.Lurk
import Verif.Lemmas.LurkCount
import Verif.Lemmas.Lurk
import Verif.Props.Lurk
import Verif.Spec.Rerun
import Verif.Props.Rerun
