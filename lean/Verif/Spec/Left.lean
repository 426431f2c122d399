import Verif.Spec.Readpass
/-
What is left of standard input once a passphrase has been obtained.
-/
namespace Scrypt.Spec
open Scrypt

/-- `LeavesStdin env m once p left`: method `m` having given the passphrase `p`, reading standard input goes on with `left`.  Environment variables and files
leave it alone; so does the terminal; if the passphrase came from standard input, the lines it was typed on are gone and nothing else. -/
inductive LeavesStdin (env : PeEnv) : PassEntry → Bool → Bytes → Strm → Prop
  | env {once p} : LeavesStdin env .env once p env.rp.stdin
  | file {once p} : LeavesStdin env .file once p env.rp.stdin
  | ttyOnce {once p} : LeavesStdin env .ttyOnce once p env.rp.stdin
  | tty {once f p} : env.rp.tty = some f → LeavesStdin env .ttyStdin once p env.rp.stdin
  | noTty {once p rest} : env.rp.tty = none → Entered (!once) env.rp.stdin p rest → LeavesStdin env .ttyStdin once p rest
  | stdinOnce {once p rest} : Entered false env.rp.stdin p rest → LeavesStdin env .stdinOnce once p rest

end Scrypt.Spec
