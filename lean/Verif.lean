import Verif.Prop.Window
import Verif.Prop.Wire
import Verif.Prop.Messages
import Verif.Prop.Input
import Verif.Prop.Output
import Verif.Prop.Algorithms
import Verif.Prop.Kex
import Verif.Prop.KexKeys
import Verif.Prop.Requests
import Verif.Prop.Response
import Verif.Prop.Channels
import Verif.Prop.ChannelIo
import Verif.Prop.KeyFile
import Verif.Prop.Auth
import Verif.Prop.AuthMethods
import Verif.Prop.Accounting
import Verif.Prop.Cmdline
import Verif.Prop.Session
import Verif.Prop.Identity
import Verif.Prop.Agent
import Verif.Prop.Greeting
import Verif.Prop.ExtInfo
import Verif.Prop.Authentic
import Verif.Prop.SessionIo
import Verif.Prop.SessionOut
import Verif.Prop.Ciphers
import Verif.Prop.Version
import Verif.Prop.TermModes
import Verif.Prop.Rsa
import Verif.Prop.Login
import Verif.Prop.Cluster
import Verif.Prop.Control
import Verif.Prop.Proxy
import Verif.Prop.Keys
import Verif.Prop.SecretFile
import Verif.Prop.TargetLogin
import Verif.Prop.Deadline
import Verif.Prop.Ending
import Verif.Prop.Enumeration
import Verif.Prop.Listeners
import Verif.Prop.Shutdown
import Verif.Prop.Config
import Verif.Prop.Transport
import Verif.Prop.Exit
import Verif.Prop.Reject
import Verif.Prop.Server
import Verif.Prop.Holder
import Verif.Prop.Host
import Verif.Prop.Environ
import Verif.Prop.Pair
import Verif.Prop.Statistics
import Verif.Prop.Guard
import Verif.Prop.Prices
import Verif.Prop.Rekey
import Verif.Prop.Relay
import Verif.Prop.Census
import Verif.Prop.Tunnel
import Verif.Prop.Caller
import Verif.Prop.Gateway
import Verif.Prop.Behind
import Verif.Prop.Startup
import Verif.Prop.Reverse
import Verif.Prop.Secret
import Verif.Prop.House
import Verif.Prop.Strict
import Verif.Prop.Farewell
import Verif.Prop.Ledger
import Verif.Prop.Allowance
