import Verif.Model.PluginFile

/-!
# Specification of plugins from files
-/

namespace Verif.PluginFile
open Verif Py Context

/-- What a file itself says about a name: its last binding. -/
def File.says {V : Type} (f : File V) (x : Str) : Option (Import V) := (f.names.reverse.find? (fun b => b.1 = x)).map Prod.snd

end Verif.PluginFile
