import Verif.Transcript.Props
import Verif.Proof.Props
import Verif.Config.Props
import Verif.Merkle.Props
import Verif.Hash.Props
import Verif.Attestation.PresentationProps
import Verif.Cipher.Props
import Verif.Ghash.Props
import Verif.RecordLayer.Agreement
import Verif.Auth.Props
import Verif.Auth.ProveProps
import Verif.Tags.Props
import Verif.Tls.FrameProps
import Verif.Tls.VecBufProps
import Verif.Tls.HandshakeProps
import Verif.TlsTranscript.Props
import Verif.Prf.Props
import Verif.KeyExchange.Props
import Verif.Session.Panics
import Verif.Session.Leader
import Verif.Session.Secrecy
import Verif.Session.LeaderSpec
import Verif.Session.LeaderInv
import Verif.Session.LeaderProps
import Verif.Deap.Model
import Verif.Deap.MapProps
import Verif.Deap.Ideal
import Verif.Deap.Inv
import Verif.Deap.Steps
import Verif.Deap.Props
import Verif.Deap.Secret
import Verif.Deap.Example
import Verif.Sdk.Http
import Verif.Sdk.Handler
import Verif.Sdk.Spec
import Verif.Sdk.Path
import Verif.Sdk.Select
import Verif.Sdk.Plan
import Verif.Sdk.Reveal
import Verif.Sdk.Openings
import Verif.Sdk.Committer
import Verif.Sdk.CommitterProps
import Verif.Sdk.Machine
import Verif.Sdk.MachineProps
import Verif.Sdk.Example
import Verif.Client.Base
import Verif.Client.Handshake
import Verif.Client.Conn
import Verif.Client.Spec
import Verif.Client.Logic
import Verif.Client.Invariant
import Verif.Client.Steps
import Verif.Client.Flight
import Verif.Client.ConnProps
import Verif.Client.FlowSpec
import Verif.Client.Flow
import Verif.Client.FlowProps
import Verif.Client.FlowRun
import Verif.Client.Demo
import Verif.Client.Props
import Verif.Client.Complete
import Verif.Drive.Demo
import Verif.Drive.Model
import Verif.Drive.Up
import Verif.Drive.Wake
import Verif.Drive.Flow
import Verif.Drive.Ends
import Verif.Drive.Props
import Verif.Drive.Shut
import Verif.Drive.Stall
import Verif.Drive.Control
import Verif.Drive.Examples
import Verif.Proxy.Forward
import Verif.Proxy.Model
import Verif.Proxy.Machine
import Verif.Proxy.Finalize
import Verif.Proxy.Props
import Verif.Proxy.Client
import Verif.Proxy.ClientProps
import Verif.Proxy.Alert
import Verif.Proxy.Wake
import Verif.Protocol.Grow
import Verif.Protocol.Model
import Verif.Protocol.Props
import Verif.Protocol.EndToEnd
import Verif.Protocol.Session
import Verif.Protocol.SessionProps
import Verif.Gcm.Vm
import Verif.Gcm.Model
import Verif.Gcm.Lemmas
import Verif.Gcm.Ops
import Verif.Gcm.Alloc
import Verif.Gcm.Values
import Verif.Gcm.Shares
import Verif.Gcm.Ready
import Verif.Gcm.Steps
import Verif.Gcm.Refine
import Verif.Gcm.Refine2
import Verif.Gcm.Pair
import Verif.Gcm.PairRun
import Verif.Gcm.Spec
import Verif.Gcm.Props
import Verif.Pki.Model
import Verif.Pki.Spec
import Verif.Pki.Props
import Verif.Pki.EndToEnd
import Verif.Pki.Example
import Verif.Client.Faithful
import Verif.ClientAuth.Model
import Verif.ClientAuth.Spec
import Verif.ClientAuth.Props
import Verif.ClientAuth.Identity
import Verif.ClientAuth.Example
import Verif.Wasm.Io
import Verif.Wasm.IoSpec
import Verif.Wasm.IoProps
import Verif.Wasm.Binding
import Verif.Wasm.BindingProps
import Verif.Wasm.CallProps
import Verif.Sdk.Hyper
import Verif.Sdk.HyperProps
import Verif.Signing.Model
import Verif.Signing.Spec
import Verif.Signing.Props
import Verif.Signing.Example
import Verif.Sdk.Verify
import Verif.Wasm.Verifier
import Verif.Wasm.Plugin
import Verif.Proxy.Identity
import Verif.Sdk.Logging
import Verif.Deap.Keys
import Verif.Gcm.Layer
import Verif.Gcm.LayerProps
import Verif.Drive.Truncate
import Verif.Session.Delivered
import Verif.Client.Unprotected
import Verif.Client.WithLeader
import Verif.Client.LeaderExample
import Verif.Client.Renegotiation
import Verif.Protocol.Application
import Verif.Protocol.ApplicationExample
import Verif.Drive.Settled
import Verif.Prf.Alloc
import Verif.Tls.Pending
import Verif.Tls.HelloRetry
import Verif.Protocol.Presented
import Verif.Protocol.PresentedExample
import Verif.Protocol.Prover
import Verif.Protocol.ProverExample
import Verif.Sdk.Application
import Verif.Sdk.ApplicationExample
import Verif.Proof.Message
import Verif.AgeExample.Example
import Verif.Protocol.Redacted
import Verif.Demo.Example
import Verif.Protocol.ErrorsProps
import Verif.Sdk.Told
import Verif.Proxy.Errors
import Verif.Client.Name
import Verif.Sdk.CommitError
