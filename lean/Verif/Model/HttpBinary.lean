import Verif.Model.HttpServer
import Verif.Model.HttpOut
import Verif.Model.TreeBuilder
/-!
# The binary unmarshaller behind the HTTP readers
-/
namespace Frpc
open HttpServer

/-- The binary unmarshaller as the HTTP readers see it: the exception, if any, for the last of the
pieces, and at the end (`DataSink_t`, `src/frpchttpclient.h:60-81`). -/
def binFeed (cfg : TreeBuilder.Cfg) (req : BinUnMarshaller.Req) (l : List Bytes) : Option Err :=
  (BinUnMarshaller.unMarshallAll (TreeBuilder.builder cfg) req BinUnMarshaller.init TreeBuilder.init l).2.2

/-- See `binFeed`. -/
def binFinish (cfg : TreeBuilder.Cfg) (req : BinUnMarshaller.Req) (l : List Bytes) : Option Err :=
  match BinUnMarshaller.finish (BinUnMarshaller.unMarshallAll (TreeBuilder.builder cfg) req BinUnMarshaller.init TreeBuilder.init l).1 with
  | .ok _ => none
  | .error e => some e

/-- A server that reads the binary protocol (`src/frpcserver.cc:293-297`); the other protocols are as in `env`. -/
def binEnv (cfg : TreeBuilder.Cfg) (env : Env) : Env :=
  { env with
    feed := fun k p l => match k with
      | .binary => binFeed cfg .call l
      | k => env.feed k p l
    finish := fun k p l => match k with
      | .binary => binFinish cfg .call l
      | k => env.finish k p l }

end Frpc
