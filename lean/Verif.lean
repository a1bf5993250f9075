import Verif.Props.Matching
import Verif.Props.Meta
import Verif.Props.MetaExpr
import Verif.Props.Conf
import Verif.Props.Content
import Verif.Props.Received
import Verif.Props.ReplaceTags
import Verif.Props.Locales
import Verif.Props.HeaderChars
import Verif.Props.Recipients
import Verif.Props.Dates
import Verif.Props.MimeEval
import Verif.Props.DnsEval
import Verif.Props.Links
import Verif.Props.FreeMail
import Verif.Props.BodyEval
import Verif.Props.Serialise
import Verif.Props.Script
import Verif.Props.HeaderRules
import Verif.Props.Attachments
import Verif.Props.Texts
import Verif.Props.Services
import Verif.Props.ReceivedRe
import Verif.Props.Builtins
import Verif.Props.Context
import Verif.Props.Parser
import Verif.Props.IncludeTrace
import Verif.Props.Header
import Verif.Props.Message
import Verif.Props.HeaderRule
import Verif.Props.Build
import Verif.Props.Networks
import Verif.Props.Relays
import Verif.Props.Dns
import Verif.Props.Report
import Verif.Props.Protocol
import Verif.Props.Server
import Verif.Props.Bayes
import Verif.Props.BayesScore
import Verif.Props.BayesSteps
import Verif.Props.ServerSteps
import Verif.Props.Awl
import Verif.Props.AwlProcs
import Verif.Props.ShortCircuit
import Verif.Props.AutoLearn
import Verif.Props.SenderAuth
import Verif.Props.Wlbl
import Verif.Props.NetText
import Verif.Props.DnsText
import Verif.Props.Tokens
import Verif.Props.Dkim
import Verif.Props.TokenHeaders
import Verif.Props.TokenSeparators
import Verif.Props.Forgery
import Verif.Props.Sections
import Verif.Props.Scan
import Verif.Props.ScanScore
import Verif.Props.Wrap
import Verif.Props.BayesScan
import Verif.Props.TokenLetters
import Verif.Props.SubjectId
import Verif.Props.Ipv6Re
import Verif.Props.Skip
import Verif.Props.HeadEnd
import Verif.Props.AwlKey
import Verif.Props.Fields
import Verif.Props.HostField
import Verif.Props.ServerField
import Verif.Props.AuthField
import Verif.Props.Chew
import Verif.Props.BayesDistance
import Verif.Props.PluginFile
import Verif.Props.Daemon
import Verif.Props.Compile
import Verif.Props.BayesTouch
import Verif.Props.Hooks
import Verif.Props.Spamd
import Verif.Props.Restore
import Verif.Props.WlblConf
import Verif.Props.SpamdReport
import Verif.Props.Ipv6Case
import Verif.Props.SubjectEnd
import Verif.Props.ParserReal
import Verif.Props.SpamdProcess
import Verif.Props.PluginConf
import Verif.Props.ScanPre
import Verif.Props.Tell
import Verif.Props.FullEnv
import Verif.Props.ScanText
import Verif.Props.Redirect
import Verif.Props.Functions
import Verif.Props.Stock
import Verif.Props.Local
import Verif.Props.Order
import Verif.Props.ParserLog
import Verif.Props.BayesShown
import Verif.Props.BayesExpire
import Verif.Props.DkimKey
import Verif.Props.CopSend
import Verif.Props.AllFrom
import Verif.Props.ListRule
import Verif.Props.FreeHeader
import Verif.Props.Marks
import Verif.Props.HeadText
