import Verif.Model.Arith
import Verif.Model.Time
import Verif.Model.Decoder
import Verif.Model.Nec
import Verif.Model.Rc5
import Verif.Model.Rc6
import Verif.Model.Sbp
import Verif.Model.Denon
import Verif.Model.Cmd
import Verif.Model.Receiver
import Verif.Model.Builder
import Verif.Model.Sender
import Verif.Model.Remote
import Verif.Spec.Words
import Verif.Lemmas.Time
import Verif.Props.Words
import Verif.Spec.Run
import Verif.Spec.Frames
import Verif.Lemmas.Run
import Verif.Lemmas.Bits
import Verif.Lemmas.Nec
import Verif.Lemmas.Sbp
import Verif.Lemmas.Denon
import Verif.Props.Timing
import Verif.Props.Nec
import Verif.Spec.Manchester
import Verif.Lemmas.Frames
import Verif.Lemmas.Tables
import Verif.Lemmas.Manchester
import Verif.Lemmas.Rc5
import Verif.Props.Sbp
import Verif.Props.Denon
import Verif.Lemmas.Rc6
import Verif.Spec.Robust
import Verif.Lemmas.Robust
import Verif.Props.Rc5
import Verif.Props.Rc6
import Verif.Props.Robust
import Verif.Spec.Drivers
import Verif.Lemmas.Drivers
import Verif.Props.Drivers
import Verif.Spec.Waveforms
import Verif.Lemmas.Encoders
import Verif.Lemmas.RoundTrip
import Verif.Props.Encoders
import Verif.Spec.Sending
import Verif.Lemmas.Sending
import Verif.Props.Sender
import Verif.Spec.Remotes
import Verif.Spec.RemoteTables
import Verif.Props.Remotes
import Verif.Spec.Cross
import Verif.Props.Cross
import Verif.Lemmas.Windows
import Verif.Spec.Physical
import Verif.Props.Physical
import Verif.Spec.Sampling
import Verif.Props.Sampling
import Verif.Props.TwoClocks
import Verif.Spec.Streams
import Verif.Props.Streams
import Verif.Spec.Session
import Verif.Props.Session
import Verif.Props.ManchesterSession
import Verif.Props.Buttons
import Verif.Spec.Room
import Verif.Lemmas.Air
import Verif.Lemmas.Listeners
import Verif.Lemmas.ManchesterListeners
import Verif.Props.Room
import Verif.Model.Buffers
import Verif.Props.Buffers
import Verif.Props.MultiPin
import Verif.Props.Created
import Verif.Spec.Fugit
import Verif.Lemmas.Fugit
import Verif.Props.Fugit
import Verif.Props.Reception
import Verif.Props.Noise
import Verif.Spec.Parse
import Verif.Props.Parse
import Verif.Model.Examples
import Verif.Spec.Examples
import Verif.Props.SenderExample
import Verif.Props.Mailbox
import Verif.Props.Usb
import Verif.Props.FirstEdge
import Verif.Props.Capture
import Verif.Props.Tutorial
import Verif.Props.WholeBuffer
import Verif.Props.AnyLine
import Verif.Props.Profiles
import Verif.Props.Rates
import Verif.Props.Documented
import Verif.Props.Rc6Rates
import Verif.Props.AppleAny
import Verif.Props.Loggers
import Verif.Props.Exact
import Verif.Props.ExactBi
import Verif.Props.ExactPolled
import Verif.Conformance
import Verif.Props.PolledNoise
import Verif.Props.Latency
import Verif.Props.Held
import Verif.Props.Late
import Verif.Props.Missed
import Verif.Props.Ticks
import Verif.Props.TicksBi
import Verif.Props.Broken
import Verif.Props.BrokenBi
import Verif.Spec.Drift
import Verif.Props.Drift
import Verif.Props.DriftBad
import Verif.Props.DriftBi
import Verif.Spec.Inverted
import Verif.Props.Inverted
import Verif.Props.InvertedBi
import Verif.Spec.Spacing
import Verif.Props.Spacing
import Verif.Props.SpacingBi
import Verif.Props.SpacingAll
import Verif.Spec.Spike
import Verif.Props.Spike
import Verif.Props.SpikeBi
import Verif.Spec.Missing
import Verif.Props.Missing
import Verif.Props.MissingBi
import Verif.Spec.Noisy
import Verif.Props.Noisy
import Verif.Props.NoisyBi
import Verif.Props.NoisyAll
import Verif.Spec.HurtBi
import Verif.Props.HurtBi
import Verif.Props.HurtRc6
import Verif.Props.Hurt
import Verif.Spec.BitErrors
import Verif.Props.BitErrors
import Verif.Spec.Wrap
import Verif.Props.Wrap
import Verif.Spec.WrapBi
import Verif.Props.WrapBi
import Verif.Props.WrapRc6
import Verif.Spec.Busy
import Verif.Props.Busy
import Verif.Spec.Swallow
import Verif.Props.Swallow
import Verif.Props.SwallowBi
import Verif.Spec.Stretch
import Verif.Props.Stretch
import Verif.Spec.Variants
import Verif.Props.Variants
import Verif.Spec.Relay
import Verif.Props.Relay
import Verif.Props.RelayLive
import Verif.Spec.SessionTime
import Verif.Props.SessionTime
import Verif.Props.SessionTimeRc
import Verif.Spec.Chain
import Verif.Props.Chain
import Verif.Props.RelayTable
import Verif.Spec.Row
import Verif.Props.Row
import Verif.Spec.Taken
import Verif.Props.Taken
import Verif.Spec.Kept
import Verif.Props.Kept
import Verif.Props.Bounce
