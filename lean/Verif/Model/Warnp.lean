import Verif.Model.Enc
/-
Model of libcperciva/util/warnp.c (messages to stderr), lib/scryptenc/scryptenc_print_error.c and
libcperciva/util/align_ptr.h.  Not modelled: syslog output, which the scrypt utility never enables.
-/
namespace Scrypt

/-! ### warnp.c -/

/-- warnp.c:40-42, the loop of warnp_setprogname: `p` is the candidate, the second argument is what `progname` points to. -/
def progLoop (p : CStr) : CStr → CStr
  | [] => p
  | c :: cs => progLoop (if c = '/' then cs else p) cs

/-- warnp.c:32-53 `warnp_setprogname`: the new value of `name` (`none` if strdup fails). -/
def warnp_setprogname (strdupOk : Bool) (progname : CStr) : Option CStr :=
  if strdupOk then some (progLoop progname progname) else none

/-- warnp.c:69-77, what warn prints: name, message (fmt != NULL) and the text of errno. -/
def warnText (name : Option CStr) (msg : Option CStr) (strerror : CStr) : CStr :=
  name.getD "(unknown)".toList ++ (match msg with | some m => ": ".toList ++ m | none => []) ++ ": ".toList ++ strerror ++ ['\n']

/-- warnp.c:110-118, what warnx prints. -/
def warnxText (name : Option CStr) (msg : Option CStr) : CStr :=
  name.getD "(unknown)".toList ++ (match msg with | some m => ": ".toList ++ m | none => []) ++ ['\n']

/-! ### scryptenc_print_error.c -/

/-- A message: `warnp` adds the text of errno, `warn0` does not. [warnp.h:42-78, warnp.c:57-136] -/
inductive Diag
  | warnp (t : CStr)
  | warn0 (t : CStr)
  deriving DecidableEq

/-- scryptenc_print_error.c:15-77 `scryptenc_print_error` -/
def scryptenc_print_error (rc : Nat) (infilename outfilename : Option CStr) : Res Diag :=
  if rc = Code.OK.num then .abort
  else if rc = Code.ELIMIT.num then .ok (.warnp "Error determining amount of available memory".toList)
  else if rc = Code.ECLOCK.num then .ok (.warnp "Error reading clocks".toList)
  else if rc = Code.EKEY.num then .ok (.warnp "Error computing derived key".toList)
  else if rc = Code.ESALT.num then .ok (.warnp "Error reading salt".toList)
  else if rc = Code.EOPENSSL.num then .ok (.warnp "OpenSSL error".toList)
  else if rc = Code.ENOMEM.num then .ok (.warnp "Error allocating memory".toList)
  else if rc = Code.EINVAL.num then .ok (.warn0 "Input is not valid scrypt-encrypted block".toList)
  else if rc = Code.EVERSION.num then .ok (.warn0 "Unrecognized scrypt format version".toList)
  else if rc = Code.ETOOBIG.num then .ok (.warn0 "Decrypting file would require too much memory".toList)
  else if rc = Code.ETOOSLOW.num then .ok (.warn0 "Decrypting file would take too much CPU time".toList)
  else if rc = Code.EBIGSLOW.num then .ok (.warn0 "Decrypting file would require too much memory and CPU time".toList)
  else if rc = Code.EPASS.num then .ok (.warn0 "Passphrase is incorrect".toList)
  else if rc = Code.EWRFILE.num then .ok (.warnp ("Error writing file: ".toList ++ outfilename.getD "standard output".toList))
  else if rc = Code.ERDFILE.num then .ok (.warnp ("Error reading file: ".toList ++ infilename.getD "standard input".toList))
  else if rc = Code.EPARAM.num then .ok (.warn0 "Error in explicit parameters".toList)
  else .ok (.warn0 "Programmer error: unrecognized scrypt error".toList)

/-! ### align_ptr.h -/

/-- align_ptr.h:36-50 `align_ptr`: `addr` is (uintptr_t)(&arr[0]); the result is the offset of the returned pointer in the array.
Division by zero is undefined. -/
def align_ptr (addr alignment : W64) : Res W64 :=
  if alignment = 0 then .ub
  else
    let offset := addr % alignment
    .ok ((alignment - offset) % alignment)

/-- align_ptr.h:15-17, ALIGN_PTR_DECL: the length of the buffer for `num` elements of `size` bytes. -/
def alignBufLen (num size alignsize : Nat) : Nat := num * size + (alignsize - 1)

end Scrypt
