import Verif.Lemmas.Rx13
import Verif.Lemmas.Queue13
import Verif.Lemmas.Prov13
import Verif.Lemmas.Recv13
import Verif.Lemmas.Hist13
import Verif.Lemmas.Order13
import Verif.Lemmas.Close13
import Verif.Lemmas.Phase13
import Verif.Props.Window
import Verif.Props.Wire
import Verif.Props.Seq13
import Verif.Props.Kdf
import Verif.Props.Timer
import Verif.Props.Auto
import Verif.Props.Config
import Verif.Props.App12
import Verif.Props.Send12
import Verif.Props.Recv12
import Verif.Props.Frag12
import Verif.Props.Close12
import Verif.Props.ShakeDemo12
import Verif.Model.Client13
import Verif.Model.Server13
import Verif.Props.Demo13
import Verif.Lemmas.Session13
import Verif.Lemmas.Wired13
import Verif.Lemmas.Split13
import Verif.Props.Send13
import Verif.Props.App13
import Verif.Lemmas.Suite13
import Verif.Props.Recv13
import Verif.Lemmas.Later13
import Verif.Lemmas.Saga13
import Verif.Props.ShakeDemo13
import Verif.Props.Cookie13
import Verif.Lemmas.Fresh13
import Verif.Props.Fresh13
import Verif.Lemmas.Epoch13
import Verif.Props.Epoch13
import Verif.Lemmas.Clock13
import Verif.Lemmas.Clock12
import Verif.Lemmas.ClockServer13
import Verif.Lemmas.Expire13
import Verif.Props.Timer13
import Verif.Props.Timer12
import Verif.Lemmas.Parse13
import Verif.Lemmas.Walk13
import Verif.Lemmas.Marks13
import Verif.Props.Close13
import Verif.Lemmas.Ack13
import Verif.Lemmas.Rotate13
import Verif.Props.Ack13
import Verif.Lemmas.Limit13
import Verif.Props.Limit13
import Verif.Props.Pair13
import Verif.Props.Frag13
import Verif.Props.FragDemo13
import Verif.Model.Dtls
import Verif.Lemmas.Role12
import Verif.Lemmas.Role13
import Verif.Lemmas.Fall13
import Verif.Lemmas.Dtls
import Verif.Props.Dtls
import Verif.Props.Sense
import Verif.Props.Hybrid
import Verif.Model.Msg
import Verif.Model.Msg12
import Verif.Model.Msg13
import Verif.Lemmas.Msg
import Verif.Props.Msg
import Verif.Props.Msg12
import Verif.Props.Msg13
import Verif.Props.MsgHybrid
import Verif.Props.MsgDemo
import Verif.Lemmas.MsgInv
import Verif.Props.MsgOnly12
import Verif.Props.MsgOnly13
import Verif.Props.MsgOnlyExt
import Verif.Lemmas.Adds12
import Verif.Lemmas.Random12
import Verif.Props.AgreeBase12
import Verif.Props.AgreeClient12
import Verif.Props.AgreeServer12
import Verif.Props.Keying12
import Verif.Props.Agree12
import Verif.Props.Dupe12
import Verif.Props.Dupe13
import Verif.Lemmas.Hushed13
import Verif.Lemmas.Adds13
import Verif.Props.AgreeBase13
import Verif.Props.AgreeClient13
import Verif.Props.AgreeServer13
import Verif.Props.Keying13
import Verif.Props.Agree13
import Verif.Lemmas.Safe13
import Verif.Props.Safe13
import Verif.Lemmas.Sound13
import Verif.Lemmas.Fit13
import Verif.Lemmas.Ready13
import Verif.Lemmas.NoPanic13
import Verif.Props.NoPanic13
import Verif.Lemmas.Ends12
import Verif.Lemmas.Ends13
import Verif.Props.Returns
import Verif.Lemmas.Cited12
import Verif.Lemmas.Cited13
import Verif.Props.Drain12
import Verif.Props.Drain13
import Verif.Props.Drain
import Verif.Lemmas.Calm12
import Verif.Lemmas.NoPanic12
import Verif.Props.NoPanic12
import Verif.Props.Pair12
import Verif.Props.Full
import Verif.Props.Net13
import Verif.Props.Spoof
import Verif.Model.Schedule
import Verif.Props.Schedule
import Verif.Props.Master12
import Verif.Props.Exported
import Verif.Props.Groups
import Verif.Props.Retry13
import Verif.Props.Downgrade
import Verif.Props.Sigs
import Verif.Model.Verify
import Verif.Props.Verify
import Verif.Model.Fingerprint
import Verif.Props.Fingerprint
import Verif.Model.Sign
import Verif.Props.Sign
import Verif.Model.Cipher
import Verif.Props.Cipher
import Verif.Model.Mask
import Verif.Props.Mask
import Verif.Props.Fields
import Verif.Model.Clock
import Verif.Props.Clock
import Verif.Model.Kx
import Verif.Props.Kx
import Verif.Props.Prefer
import Verif.Model.Pool
import Verif.Props.Pool
