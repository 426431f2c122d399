import Verif.Model.Enc
/-
One decryption handle (scryptdec_file_prep), several calls of scryptdec_file_copy.
-/
namespace Scrypt

/-- scryptenc.c:791-884: one call of `scryptdec_file_copy(C, outfile)`.  `sys`: what the system answers during this call; `again`: before the call the
caller may have put the input back to the byte behind the header (fseek, rewind), and this is what reading will deliver from there. -/
structure HandleCall where
  sys : EncSys
  outf : OutFile
  again : Option InFile

/-- scryptenc.c:791-884: the calls of `scryptdec_file_copy` made with one handle.  The handle itself (the header, the keys, the pointer to the input;
scryptenc.c:58-68) is only read by a call; what changes is the position of the input. -/
def handleCalls : Cookie → List HandleCall → Res (List CopyOut)
  | _, [] => .ok []
  | c, k :: ks =>
    scryptdec_file_copy k.sys { c with inf := k.again.getD c.inf } k.outf >>= fun o =>
      handleCalls { c with inf := o.inf } ks >>= fun os => .ok (o :: os)

end Scrypt
