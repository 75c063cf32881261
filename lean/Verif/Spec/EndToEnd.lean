import Verif.Spec.Tools
/-! Specification vocabulary for messages sent and fetched with the command line tools. -/

namespace Dtn.Spec
open Dtn.Tools

/-- The world after `dtnrecv` was run a number of times. -/
def afterRecv (x : Httpd.Ext) (cfg : Httpd.Cfg) (a : RecvArgs) : Nat → Httpd.World → Httpd.World
  | 0, w => w
  | k + 1, w => afterRecv x cfg a k (dtnrecv x cfg w a true).1

end Dtn.Spec
