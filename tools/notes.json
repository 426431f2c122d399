{
 "C18": {
  "note": "For every selectable block function; constants checked against their definition as root fractions of primes."
 },
 "C20": {
  "note": "c = 2^64-1 excluded: the C loop counter wraps and the loop never ends (finding F10)."
 },
 "C42": {
  "note": "Relative to the instruction semantics in Spec/Intrinsics.lean."
 },
 "C21": {
  "note": "RFC 7914 for p <= 2^25; C21_exact gives the value for every accepted p (finding F13: 32-bit block index)."
 },
 "C22": {
  "note": "SSE2 relative to the instruction semantics in Spec/Intrinsics.lean."
 },
 "C23": {
  "note": "For both size_t widths; F12 is the munmap case."
 },
 "C43": {
  "note": "Arbitrary routines for 'selected passed'; the actual code for 'never aborts' (self-test vector evaluated by the kernel). F14: allocation failure during the self-test."
 }
}