import Verif.Base
import Verif.BaseLemmas
import Verif.Name.Model
import Verif.Name.Props
import Verif.Num.Props
import Verif.HostPort.Props
import Verif.Str.Props
import Verif.Path.Props
import Verif.Rw.Props
import Verif.Pipe.Props
import Verif.Pipe.LiveProps
import Verif.Buffer.Props
import Verif.Proxy.Props
import Verif.Alloc.Props
import Verif.Stralloc.Props
import Verif.Pem.Props
import Verif.Resolve.Props
import Verif.Conn.Props
import Verif.Conn.TimeProps
import Verif.Conn.ClockProps
import Verif.Conn.ToldProps
import Verif.Log.Props
import Verif.Relay.TcpProps
import Verif.Relay.ClearProps
import Verif.Relay.TlsProps
import Verif.Relay.Over
import Verif.Relay.Ended
import Verif.Relay.Timer
import Verif.Relay.FairProps
import Verif.Smtp.CommandProps
import Verif.Smtp.LimitProps
import Verif.Smtp.GreyProps
import Verif.Smtp.GreyOwn
import Verif.Smtp.Held
import Verif.Smtp.HeldProps
import Verif.Smtp.ReplyProps
import Verif.Smtp.StarttlsProps
import Verif.Smtp.Mail
import Verif.Smtp.MailSpec
import Verif.Smtp.MailErase
import Verif.Smtp.MailLemmas
import Verif.Smtp.MailProps
import Verif.Ec.Props
import Verif.Key.SafeProps
import Verif.Key.NetProps
import Verif.Key.Whole
import Verif.Key.WholeProps
import Verif.Key.Lost
import Verif.Key.Cut
import Verif.Key.LostProps
import Verif.Key.BoundProps
import Verif.Key.SecretProps
import Verif.Cmd.Props
import Verif.Cmd.Order
import Verif.Crt.Props
import Verif.Crt.FileProps
import Verif.Fd.Props
import Verif.Fd.OpenProps
import Verif.Diag.Props
import Verif.Conf.ProfileProps
import Verif.Conf.Props
import Verif.Conf.ChooseProps
import Verif.Jail.Props
import Verif.Jail.PollProps
import Verif.ConnInfo.Props
import Verif.Main.ChildProps
import Verif.Main.FdsProps
import Verif.Main.SmtpFds
import Verif.Main.SmtpFdsProps
import Verif.Main.SigProps
import Verif.Log.HarmProps
import Verif.Resolve.TrustProps
import Verif.Resolve.HelperProps
import Verif.Main.StartProps
import Verif.Main.Late
import Verif.Wipe.Props
import Verif.Relay.LiveProps
import Verif.Session.Props
import Verif.Session.Joint
import Verif.Session.JointProps
import Verif.Tcp.Model
import Verif.Tcp.Spec
import Verif.Tcp.Lemmas
import Verif.Tcp.Course
import Verif.Tcp.Props
import Verif.SmtpMain.Model
import Verif.SmtpMain.Spec
import Verif.SmtpMain.Course
import Verif.SmtpMain.Props
import Verif.TlsMain.Model
import Verif.TlsMain.Spec
import Verif.TlsMain.Course
import Verif.TlsMain.Props
import Verif.Chain.Spec
import Verif.Chain.Props
import Verif.Smtp.Cut
import Verif.Main.Fresh
import Verif.Conf.ConnLine
import Verif.Conf.Refuse
import Verif.Cmd.Refuse
import Verif.Smtp.MessageEnd
import Verif.Smtp.Question
import Verif.Smtp.Accepted
import Verif.Smtp.InStep
