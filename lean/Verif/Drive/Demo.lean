import Verif.Drive.Model
import Verif.Client.Demo

/-! # A run of the prover -/

namespace Tlsn.Drive

open Tlsn.Client

/-- A leader that is done when it is asked. -/
def demoOut : Outside := ⟨demoWorld, fun _ => true, fun _ => true⟩

/-- A poll during which all futures are ready and `s` comes from the socket. -/
def demoEnv (s : SockRead) : Env :=
  ⟨100, s, 1000, 10, ⟨fun _ => some 10, some true⟩, 1000, .takes 1000, .takes 1000, some true, some true, some true⟩

/-- The handshake and three bytes from the application. -/
def demoOpen : List Act := [.poll (demoEnv .pending), .appWrite [1, 2, 3], .poll (demoEnv (.data demoFlight)), .poll (demoEnv .pending),
  .poll (demoEnv (.data demoSecond)), .poll (demoEnv .pending)]

/-- The application reads what the server sent and closes its side. -/
def demoClose : List Act := demoOpen ++ [.appRead 2, .appClose, .poll (demoEnv .pending), .poll (demoEnv .pending)]

/-- Then the server closes. -/
def demoActs : List Act := demoClose ++ [.poll (demoEnv .eof)]

end Tlsn.Drive
