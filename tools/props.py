#!/usr/bin/env python3
# Generates /verif/properties.jsonl (source of truth for the property list).
import json
P=[]
def p(id,title,statement,quantifier,why,anchors):
    P.append(dict(id=id,title=title,statement=statement,quantifier=quantifier,why_tests_cant=why,anchors=anchors))
SE="lib/scryptenc/scryptenc.c"
p("C01","Buffer encrypt/decrypt round trip",
 "If scryptenc_buf succeeds on a message with some passphrase, then scryptdec_buf of the bytes it produced, with the same passphrase and resource checks that pass (or force=1), returns SCRYPT_OK, outlen equal to the message length, exactly the message bytes, and the same logN, r, p.",
 "every message, passphrase, salt, accepted parameter set and AES implementation",
 "The message space and the salt/parameter space are unbounded; a test checks a handful of lengths.",
 [SE+":scryptenc_buf",SE+":scryptdec_buf"])
p("C02","Stream encrypt/decrypt round trip under any read chunking",
 "scryptdec_file applied to what scryptenc_file wrote, with the same passphrase, writes exactly the original stream and returns SCRYPT_OK, however the two input streams are cut up into successive fread results.",
 "every plaintext, passphrase, salt, parameter set, and every chunking of both input streams",
 "Chunk boundaries interact with the 64 KiB block, the 16-byte cipher block, the 64-byte hash block and the 32-byte look-ahead; tests exercise only full-size reads.",
 [SE+":scryptenc_file",SE+":scryptdec_file_copy",SE+":scryptdec_file"])
p("C03","Output conforms to the documented format",
 "A successful encryption of X bytes outputs exactly X+128 bytes laid out as FORMAT says: magic, version 0, logN, big-endian r and p, 32-byte salt, SHA256 prefix of bytes 0..47, HMAC of bytes 0..63, data xor AES256-CTR key stream (nonce 0), HMAC of everything before it, keys from scrypt(pass, salt, N, r, p, 64) as RFC 7914 defines it if p <= 2^25, and as crypto_scrypt computes it (finding F13) beyond.",
 "every message, passphrase, salt and parameter set",
 "Byte-exact layout for all lengths and parameters cannot be enumerated.",
 ["FORMAT",SE+":scryptenc_setup",SE+":scryptenc_buf",SE+":scryptenc_file"])
p("C04","Buffer and stream interfaces agree",
 "For the same passphrase, salt and parameters, scryptenc_file writes exactly the bytes scryptenc_buf produces; scryptdec_file on a byte string returns SCRYPT_OK iff scryptdec_buf does, with the same plaintext; and on inputs they reject, absent I/O failures, both give the same return code unless the input has 96 to 127 bytes (too short for a tag: the buffer interface reports EINVAL or EVERSION at once, the stream interface examines the header first).",
 "every input byte string, passphrase and chunking",
 "Two independently written parsers must agree on every malformed input, including all truncation points.",
 [SE+":scryptdec_buf",SE+":scryptdec_file_prep",SE+":scryptdec_file_copy"])
p("C05","Decryption succeeds only on genuine encryptions",
 "If decryption returns SCRYPT_OK with plaintext m, then the input is byte-for-byte the encryption of m under that passphrase with the salt and parameters stored in the input: no accepted input contains an unauthenticated or ignored byte.",
 "every input byte string and passphrase",
 "It is a statement about all adversarial inputs.",
 [SE+":scryptdec_setup",SE+":scryptdec_buf",SE+":scryptdec_file_copy"])
p("C06","Tampering, truncation and extension are rejected",
 "Given an accepted file, any different byte string that is accepted with the same passphrase and the same 96-byte header but the same final tag yields an explicit HMAC-SHA256 collision under the file's key; any accepted string whose header differs only in logN, r, p or salt yields a SHA256-prefix collision or a header with a recomputed checksum; truncated inputs shorter than 128 bytes are always rejected.",
 "every pair of distinct inputs",
 "Quantifies over all modifications of all files.",
 [SE+":scryptdec_setup",SE+":scryptdec_buf"])
p("C07","Wrong passphrase is reported as such and reveals no output",
 "Decryption returns SCRYPT_EPASS exactly when the header is well formed, its checksum matches, the parameters pass the checks, the key derivation succeeds and the header HMAC under the derived key does not match; in that case no byte is written to the output and outlen is untouched.",
 "every input, passphrase and parameter/resource state",
 "Requires the exact condition for all inputs.",
 [SE+":scryptdec_setup",SE+":scryptdec_file_prep"])
p("C08","Error classification of malformed input",
 "The return code of decryption is determined by the first failing check in the order: length/magic (EINVAL), version (EVERSION), header length (EINVAL), checksum (EINVAL), parameter validity (EINVAL), resource limits (ETOOBIG/ETOOSLOW/EBIGSLOW), key derivation (EKEY), passphrase (EPASS), final tag (EINVAL); a non-zero version byte is reported as EVERSION whatever follows it.",
 "every input byte string",
 "All malformed inputs, all truncation points.",
 [SE+":scryptdec_buf",SE+":scryptdec_file_load_header",SE+":scryptdec_setup"])
p("C09","What streaming decryption writes",
 "Whatever happens (success, read error, write error, bad tag, truncation), the bytes scryptdec_file writes are a prefix of ciphertext-without-last-32-bytes xor key stream; nothing is written before the passphrase has been verified; and on success all of it has been written.",
 "every input, chunking, read-error point and write-error point",
 "Crash/error points times chunkings are unbounded.",
 [SE+":scryptdec_file_copy",SE+":scryptdec_file_prep"])
p("C10","Parameters are reported back",
 "After a successful encryption the parameters returned via the params structure are the ones stored in the output header and used for key derivation; after a decryption that got as far as parsing the header they are the header's; explicitly given parameters are used unchanged.",
 "every call",
 "All parameter combinations.",
 [SE+":scryptenc_setup",SE+":scryptdec_setup"])
p("C11","Automatically chosen parameters respect the limits",
 "When parameters are chosen automatically they satisfy 1<=logN<=63, r=8, p>=1, r*p<2^30, 128*N*r <= memory limit and 4*N*r*p <= max(opps*maxtime, 32768), in the IEEE double arithmetic the code uses.",
 "every memory limit and every double-valued CPU speed and time limit",
 "Floating-point rounding makes boundary cases impossible to enumerate.",
 [SE+":pickparams"])
p("C12","Automatically chosen parameters are maximal",
 "Doubling the automatically chosen N would exceed the binding limit (memory limit, or CPU limit with p=1), and increasing p by one (when memory-bound) would exceed the CPU limit or the r*p<2^30 cap.",
 "every memory limit, CPU speed and time limit",
 "Same as C11.",
 [SE+":pickparams"])
p("C13","Resource check on decryption is exact",
 "Without force, decryption is refused with ETOOBIG/ETOOSLOW/EBIGSLOW exactly as 128*N*r > memory limit and/or the time test (((opps*maxtime)/N)/r)/p < 4 (IEEE doubles) say; parameters with logN outside 1..63, r=0, p=0 or r*p>=2^30 are refused with EINVAL first; no intermediate product overflows.",
 "every logN, r, p in their C types and every limit",
 "2^70 parameter triples times all limits.",
 [SE+":checkparams"])
p("C14","What was encrypted within limits decrypts within the same limits",
 "Parameters chosen automatically under a memory limit and a CPU estimate with at least 2^15 operations allowed are accepted by the decryption check under the same limits.",
 "every memory limit and CPU estimate",
 "Depends on rounding in two different expressions agreeing for all doubles.",
 [SE+":pickparams",SE+":checkparams"])
p("C15","Explicit encryption parameters: warn instead of fail",
 "With explicit parameters, encryption fails with EPARAM iff they are invalid, never fails with ETOOBIG/ETOOSLOW/EBIGSLOW, and prints the memory and/or time warning exactly when the check reported it.",
 "all explicit parameter values and limits",
 "Full decision table over unbounded values.",
 [SE+":scryptenc_setup",SE+":checkparams"])
p("C16","force skips resource checks only",
 "With force=1 decryption never returns ETOOBIG/ETOOSLOW/EBIGSLOW/ELIMIT/ECLOCK, still rejects invalid parameters, and otherwise returns the same result as an unforced decryption whose limits suffice.",
 "every input and limit state",
 "Relational property over all inputs.",
 [SE+":checkparams",SE+":scryptdec_setup"])
p("C17","Memory limit computation",
 "memtouse yields a value of at least 1 MiB, at most max(maxmem,1 MiB) when maxmem>0, at most max(1 MiB, maxmemfrac*min of the system limits up to double rounding), never undefined for maxmemfrac<=0.5; any failing system query gives an error.",
 "every combination of system limits, maxmem and maxmemfrac",
 "All limit combinations including values that round up to 2^64.",
 ["lib-platform/util/memlimit.c:memtouse","lib-platform/util/memlimit.c:memlimit_rlimit"])
p("C18","SHA-256 streaming correctness",
 "Initialising a context, feeding any sequence of buffers and finalising yields the FIPS 180-4 SHA-256 digest of the concatenation (total length below 2^61 bytes), independent of how it was split; the buffer write never leaves the 64-byte buffer.",
 "every message and every split into updates",
 "Unbounded messages and splits.",
 ["libcperciva/alg/sha256.c:SHA256_Update_internal","libcperciva/alg/sha256.c:SHA256_Pad","libcperciva/alg/sha256.c:SHA256_Transform"])
p("C19","HMAC-SHA256 correctness",
 "The streaming HMAC interface computes RFC 2104 HMAC with SHA-256 for every key length (hashed if longer than 64 bytes) and every split of the message.",
 "every key, message and split",
 "Unbounded keys and messages.",
 ["libcperciva/alg/sha256.c:HMAC_SHA256_Init_internal","libcperciva/alg/sha256.c:HMAC_SHA256_Final_internal"])
p("C20","PBKDF2-HMAC-SHA256 correctness",
 "PBKDF2_SHA256 writes exactly the RFC 8018 PBKDF2 output of the requested length for every password, salt, iteration count and length up to 32*(2^32-1), and writes nothing outside the buffer.",
 "every password, salt, iteration count and output length",
 "Unbounded inputs; partial last block.",
 ["libcperciva/alg/sha256.c:PBKDF2_SHA256"])
p("C21","crypto_scrypt computes RFC 7914 scrypt",
 "Whenever crypto_scrypt returns 0 and p <= 2^25, the output buffer is scrypt(P, S, N, r, p, dkLen) as defined in RFC 7914 (sections 3-6), and bytes beyond dkLen are untouched. (For p > 2^25 the code deviates: the block index is computed in 32 bits; the exact value computed is characterised for every accepted parameter set.)",
 "every password, salt, N, r, p, dkLen accepted, every CPU selection and call history",
 "Unbounded; large parameters are infeasible to run.",
 ["lib-platform/crypto/crypto_scrypt.c:crypto_scrypt_internal","lib/crypto/crypto_scrypt_smix.c:crypto_scrypt_smix","libscrypt-kdf/scrypt-kdf.h:scrypt_kdf"])
p("C22","SSE2, generic and reference scrypt agree",
 "The SSE2 smix (permuted layout), the generic smix (double-buffered, unrolled by two) and the reference smix compute the same function on every block, for every r>=1 and every N>=2 that is a power of two; hence crypto_scrypt gives the same answer whichever is selected.",
 "every block, r and N",
 "Equality of functions on 2^(1024r) inputs.",
 ["lib/crypto/crypto_scrypt_smix_sse2.c","lib/crypto/crypto_scrypt_smix.c","lib/crypto/crypto_scrypt-ref.c"])
p("C23","crypto_scrypt rejects exactly the bad parameters, never overflows, never accesses out of bounds",
 "crypto_scrypt fails (before writing the output) iff r=0, p=0, dkLen>32*(2^32-1), r*p>=2^30, N not a power of two >=2, a required size exceeds size_t, or an allocation fails (a failing munmap, the last step, is the only failure after the output is written); in every accepted case each allocation size is computed without wrap-around, all reads and writes of B, V, XY are within their allocations, and every allocation is released. errno is EINVAL for r=0 or p=0, then EFBIG for the output length or r*p, then EINVAL for N, then ENOMEM for a size, otherwise what the failing system call left.",
 "every parameter combination, for 32- and 64-bit size_t, every allocation failure point",
 "Overflow conditions live at extreme values.",
 ["lib-platform/crypto/crypto_scrypt.c:crypto_scrypt_internal","lib/crypto/crypto_scrypt_smix.c","libscrypt-kdf/scrypt-kdf.h:scrypt_kdf"])
p("C24","AES-CTR streaming correctness",
 "Encrypting a sequence of buffers with crypto_aesctr_stream gives exactly the concatenation xor the CTR key stream E_k(nonce64 || counter64) from position 0, however the data is split; applying it twice restores the data.",
 "every key, nonce, data and split (total below 2^64 bytes)",
 "Unbounded data and splits; counter byte wrap handling.",
 ["libcperciva/crypto/crypto_aesctr.c:crypto_aesctr_stream","libcperciva/crypto/crypto_aesctr_shared.c"])
p("C25","Accelerated CTR paths equal the portable one",
 "The AESNI and ARM whole-block paths leave the same output and an equivalent stream state as the portable path, so any interleaving of calls taking either path yields the same key stream.",
 "every state reachable by any mixture of calls",
 "All mixtures of call sizes.",
 ["libcperciva/crypto/crypto_aesctr_aesni.c","libcperciva/crypto/crypto_aesctr_arm.c"])
p("C26","Hardware AES equals FIPS-197 AES",
 "Key expansion and block encryption written with AESNI (and ARM) intrinsics compute FIPS-197 AES-128/AES-256 for every key and block, given the documented semantics of the instructions.",
 "every 128/256-bit key and every block",
 "2^384 input space; the self-test checks two vectors.",
 ["libcperciva/crypto/crypto_aes_aesni.c","libcperciva/crypto/crypto_aes_arm.c"])
p("C27","Constant-time comparison",
 "crypto_verify_bytes returns 0 iff the two buffers are equal, and the sequence of memory accesses and branches depends only on the length.",
 "every pair of buffers of every length",
 "Unbounded lengths; timing cannot be unit-tested.",
 ["libcperciva/crypto/crypto_verify_bytes.c"])
p("C28","Endian encoders and decoders",
 "be/le 16/32/64 encode and decode are mutually inverse and give the mathematically defined big-/little-endian value.",
 "every integer and byte string of the right width",
 "2^64 values.",
 ["libcperciva/util/sysendian.h"])
p("C29","humansize prints the largest representable size not above the argument",
 "humansize(n) prints '<N> B' for n<=999, otherwise '<X> <prefix>B' with 10<=X<=999 or 1.0<=X<=9.9 and the value shown is the largest value of that form <= n; the prefix index never leaves the table.",
 "every 64-bit size",
 "2^64 values.",
 ["libcperciva/util/humansize.c:humansize"])
p("C30","humansize_parse accepts exactly its grammar",
 "humansize_parse succeeds iff the string matches [0-9]+ ?[kMGTPE]?B? and the value fits in 64 bits, and then stores number*1000^k.",
 "every string",
 "Infinite language.",
 ["libcperciva/util/humansize.c:humansize_parse"])
p("C31","Numeric option parsing",
 "PARSENUM succeeds iff the whole string is a number of the requested type whose value lies within [min,max], and otherwise sets EINVAL or ERANGE.",
 "every string, bound and type",
 "Infinite strings; found exceptions (NaN, wrapped negatives) are extreme inputs.",
 ["libcperciva/util/parsenum.h"])
p("C32","Option parsing",
 "getopt splits any argument vector as documented: packed short options, '-xARG', '-x ARG', '--opt ARG', '--opt=ARG', '--' consumed as terminator, '-' and non-options terminate; it never reads past argv, and terminates with optind at the first operand. Its messages name the program without its directory and say, in order, what is wrong with which option (unknown, argument missing, argument not wanted), and there are no others.",
 "every argument vector",
 "Unbounded argument lists.",
 ["libcperciva/util/getopt.c:getopt"])
p("C33","Command line validation",
 "The program proceeds to encryption/decryption/info only if the command is valid, explicit parameters are all given or all absent and within 10<=logN<=40, 1<=r<=32, 1<=p<=2048, at most one passphrase method is given, maxmemfrac is non-zero, and the passphrase and the data are not both read from stdin; otherwise it exits 1 without touching any file. If there is no memory for the table of options (the size of a few pointers) it does neither but is killed by abort() (F33).",
 "every argument vector",
 "Unbounded option combinations and orders.",
 ["main.c:main"])
p("C34","Failed decryption does not create or truncate the output file",
 "In dec mode the output file is opened only after the header, parameters and passphrase have been verified; if any of these fail the output path is untouched and the exit status is 1.",
 "every input file, passphrase and failure point",
 "All failure points.",
 ["main.c:scrypt_mode_enc_dec"])
p("C35","Exit status reflects the outcome",
 "The program exits 0 exactly if the command line is valid, the files could be opened, a passphrase was obtained, every check of the operation passed and every write was accepted in full by the output stream; any error gives exit status 1 and an error message. With exit status 0 the output is exactly the encryption (enc) or the decrypted message (dec) of the whole input, so encrypting and then decrypting returns the original. Limits: a failing fclose of the output is reported but does not change the exit status (F7); if the output is the input file, encryption gives an encryption of nothing (F20), and decryption works on the header and what could still be read after the output was opened, so that the rest of a longer file is lost (F30).",
 "every run, including failure of every library call",
 "All failure points of all I/O calls.",
 ["main.c:scrypt_mode_enc_dec","lib/scryptenc/scryptenc_print_error.c"])
p("C36","Reading a passphrase from terminal or stdin",
 "readpass returns the first line read (without line terminator, at most 2047 bytes); when confirmation is requested it returns only after two consecutive identical reads, repeating until then; EOF or a read error gives failure.",
 "every input stream, every number of mismatching attempts",
 "Unbounded retries and line lengths.",
 ["libcperciva/util/readpass.c:readpass"])
p("C37","Reading a passphrase from a file",
 "readpass_file accepts iff the file can be read, is at most 2047 bytes and has no newline other than at the end, and returns the content up to the first CR or LF.",
 "every file content and I/O failure",
 "Unbounded contents.",
 ["libcperciva/util/readpass_file.c:readpass_file"])
p("C38","Passphrase method selection",
 "passphrase_entry_parse accepts exactly dev:tty-stdin, dev:stdin-once, dev:tty-once, env:NAME and file:PATH (with NAME/PATH everything after the first colon) and selects the corresponding source; the passphrase is asked twice only when encrypting with the default tty/stdin method. Obtaining a passphrase takes from standard input exactly the lines on which it was typed there, and if the input is standard input the utility works on what is left.",
 "every string",
 "Infinite strings.",
 ["lib/util/passphrase_entry.c"])
p("C39","Random salt generator follows HMAC_DRBG",
 "Over any history of requests, crypto_entropy_read outputs exactly the SP 800-90A HMAC_DRBG stream for the entropy inputs obtained from the OS (with the hardware RNG's bytes, when available, mixed in as one further update after each seeding), reseeds at least every 256 generate steps, never asks for more than 65536 bytes per step, never returns success without a successful seeding, and its internal assertions never fail.",
 "every sequence of requests of every size and every pattern of entropy failures",
 "Unbounded histories.",
 ["libcperciva/crypto/crypto_entropy.c"])
p("C40","OS entropy reads are complete",
 "entropy_read succeeds only if the whole buffer was filled with bytes delivered by the device in order, for any pattern of short reads; EOF or error gives failure; the descriptor and the cookie are always released.",
 "every pattern of short reads, errors and lengths",
 "Unbounded schedules of the OS.",
 ["libcperciva/util/entropy.c"])
p("C41","Key material and resources are released on every path",
 "On every exit path of the encryption/decryption functions the derived key buffer is zeroed, and every allocated AES key, stream and cookie is freed after being zeroed -- with one exact exception, a write error inside the data loop of the stream interfaces, which loses the expanded AES key (finding F2). For the utility, the output file is taken not to be the input file.",
 "every failure point",
 "All error paths.",
 [SE+":scryptenc_file",SE+":scryptdec_file_copy",SE+":scryptdec_file_cookie_free"])
p("C42","Accelerated SHA-256 block functions equal FIPS 180-4",
 "The SSE2, SHA-NI and ARM block functions compute the FIPS 180-4 compression function for every state and block, given documented instruction semantics.",
 "every state and block",
 "2^768 inputs; the self-test checks one.",
 ["libcperciva/alg/sha256_sse2.c","libcperciva/alg/sha256_shani.c","libcperciva/alg/sha256_arm.c"])
p("C43","Implementation self-test and selection",
 "The first call of crypto_scrypt selects an implementation whose self-test passed; with the code that exists it never aborts provided the self-test's 16 kB of memory can be allocated; the selection is made once and does not change the result of any later call. Over any history of library calls, the implementations of SHA-256, AES and smix stay the ones selected first, and after a successful encryption or decryption all three are selected.",
 "every history of calls and CPU feature set",
 "Histories times feature sets.",
 ["lib-platform/crypto/crypto_scrypt.c:selectsmix","libcperciva/alg/sha256.c:hwaccel_init"])
p("C44","info mode prints the file's parameters",
 "scryptdec_file_printparams prints exactly N=2^logN, r and p stored in the header and the minimum memory 128*N*r for every file with a well-formed header with logN <= 63 (for the memory figure: r < 2^25 and 128*N*r < 2^64), needs no passphrase, reads only the 96 header bytes and reports malformed headers with the same codes as decryption.",
 "every input file",
 "All 2^72 parameter encodings, including ones outside the valid range.",
 [SE+":scryptdec_file_printparams",SE+":display_params"])
p("C45","CPU speed estimate",
 "scryptenc_cpuperf returns success only after measuring at least one derivation over an interval longer than the clock resolution, and its estimate equals 512*iterations/elapsed in floating point; it is, to within one part in 2^28, the operations performed divided by the time that passed on the selected clock, whatever that clock is; any clock failure gives ECLOCK. The same holds of the measurement made by a call in a process, with the library's own derivations.",
 "every sequence of clock readings",
 "Arbitrary clock behaviour.",
 ["lib/scryptenc/scryptenc_cpuperf.c:scryptenc_cpuperf"])
p("C46","Salt determines the file; distinct salts give distinct headers",
 "The only randomness in an encryption is the 32-byte salt: given it, output is a function of message, passphrase and parameters; the salt appears verbatim in the header, so encryptions with different salts differ.",
 "every pair of encryptions",
 "Relational over all runs.",
 [SE+":scryptenc_setup"])
p("C47","Terminal and signal state restored",
 "On every exit of readpass after echo was disabled the saved terminal settings are restored, all signal handlers are restored, and every signal that arrived meanwhile is re-raised after the terminal has been restored.",
 "every signal arrival pattern and exit path",
 "Signal schedules.",
 ["libcperciva/util/readpass.c:readpass","libcperciva/util/readpass.c:resetsigs"])
p("C48","Every error code has its own message",
 "Every non-OK code the encryption/decryption functions can return is mapped to a specific message (never the 'programmer error' default), and the codes are pairwise distinct.",
 "every reachable return code",
 "Needs the set of all reachable codes.",
 ["lib/scryptenc/scryptenc_print_error.c"])
p("C49","Aligned buffers",
 "align_ptr returns the first suitably aligned address at or after the buffer start, and the ALIGN_PTR_DECL buffer is large enough to hold the array from there, for every alignment and address.",
 "every address, alignment and element count",
 "All addresses.",
 ["libcperciva/util/align_ptr.h"])
p("C50","Program name shown in messages",
 "warnp_setprogname keeps the part of the path after the last '/', i.e. a suffix of argv[0] containing no '/'.",
 "every program path",
 "Infinite strings.",
 ["libcperciva/util/warnp.c:warnp_setprogname"])
p("C51","Hostile input cannot crash the library",
 "For every byte string offered for decryption, every message offered for encryption, every file that fails at any point and every failing allocation, the encryption and decryption functions return: they never reach undefined behaviour, a failed assertion or an endless loop (given usable resource limits and an allocatable self-test).",
 "every input byte string, passphrase, limit setting and failure pattern",
 "Crash freedom on all inputs; fuzzing samples.",
 [SE+":scryptdec_buf",SE+":scryptdec_file",SE+":scryptenc_buf",SE+":scryptenc_file"])
p("C52","The utility never crashes",
 "For every argument vector, every content of files, standard input, terminal and environment, every pattern of failing system calls, a run of the utility ends with an exit status (or is still waiting for input): it never reaches undefined behaviour or a failed assertion. The only exceptions are listed: -m nan / -t nan, explicit parameters given to dec, info on a header with log2 N of 64 or more, and lack of memory for the table of options, for scrypt's self-test or for the texts that info and -v print. An output file that is the input file is no exception.",
 "every argv, file content, passphrase and failure pattern",
 "Crash freedom of the whole program on all inputs; fuzzing samples.",
 ["main.c:main","main.c:scrypt_mode_enc_dec","main.c:scrypt_mode_info"])
p("C53","The library's state does not matter",
 "Encrypting in one process and decrypting in another with the same passphrase (any machines, any calls made before in either, buffers or files) gives back the message or reports missing resources; forced and with enough memory it gives back the message. Every allowed call in every history of calls returns. A decryption or key derivation gives the same result whatever was called before and whatever accelerated code the CPU offers.",
 "every history of library calls in one process, every pair of processes and machines",
 "Histories of calls: the selected implementations and the random generator's state persist between calls.",
 [SE+":scryptenc_buf",SE+":scryptdec_buf",SE+":scryptenc_file",SE+":scryptdec_file","lib-platform/crypto/crypto_scrypt.c:crypto_scrypt","libcperciva/crypto/crypto_entropy.c:crypto_entropy_read"])
p("C54","Salts of one process come from different places of one DRBG stream",
 "In every history of calls of one process, the salts written into the files produced and the buffers filled by crypto_entropy_read are, in order, disjoint pieces of the output of one run of the SP 800-90A HMAC_DRBG, legally seeded and reseeded from what the operating system delivered: no random byte is handed out twice.",
 "every history of library calls, every behaviour of the entropy source",
 "Histories and failure patterns.",
 [SE+":scryptenc_setup","libcperciva/crypto/crypto_entropy.c:crypto_entropy_read"])
p("C55","What a key derivation costs",
 "Every crypto_scrypt call that accepts its parameters executes exactly 4*N*r*p Salsa20/8 cores and asks for exactly three blocks of 128*r*p, 256*r+64 and 128*N*r bytes (in the posix_memalign build), whichever implementation is selected and whatever the password and salt; a refused call executes none. The speed estimate's unit of 512 cores per measured derivation is therefore exact.",
 "every N, r, p, password, salt and implementation",
 "The cost has to be exact for all parameters; a test measures a few.",
 ["lib-platform/crypto/crypto_scrypt.c:crypto_scrypt_internal","lib/crypto/crypto_scrypt_smix.c:crypto_scrypt_smix","lib/crypto/crypto_scrypt_smix_sse2.c:crypto_scrypt_smix_sse2","lib/scryptenc/scryptenc_cpuperf.c:scryptenc_cpuperf"])
p("C56","Accelerated code runs only where the processor has it",
 "On every processor (every CPUID contents, every ARM capability word) and with every build configuration, in every history of calls: no routine is run, in self-tests or for real, that contains instructions the processor does not report; feature queries are answered truthfully and always the same; without detection support, or on a processor without the extensions, the portable code is used; where SHA-NI, SSE2 or ARM SHA2 can be used, the first of them is, and what is selected has passed its own self-test.",
 "every processor, build configuration and history of queries and calls",
 "Tests run on the processor at hand; 2^96 feature words cannot be enumerated.",
 ["libcperciva/cpusupport/cpusupport.h","libcperciva/cpusupport/cpusupport_x86_shani.c","libcperciva/cpusupport/cpusupport_arm_aes.c","libcperciva/alg/sha256.c:hwaccel_init","libcperciva/crypto/crypto_aes.c:hwaccel_init","lib-platform/crypto/crypto_scrypt.c:selectsmix"])
p("C57","Hashing and random generation leave no trace in working memory",
 "Whatever the stack contained before, when SHA256_Update, SHA256_Final, SHA256_Buf, HMAC_SHA256_Init/Update/Final/Buf, PBKDF2_SHA256, or the generator's update, instantiation or reseeding returns successfully, every scratch array, local key copy, local digest and local context is zero, finished contexts are zero, and the result is still exactly the standard's digest, MAC, derived key or generator state; zeroing touches exactly the bytes it is given.",
 "every message, key, salt, iteration count, output length, splitting into pieces and previous stack contents",
 "A test can look at one stack after one call; whether any input leaves message schedule words, keys or seed bytes behind is a statement about all of them.",
 ["libcperciva/alg/sha256.c:SHA256_Buf","libcperciva/alg/sha256.c:PBKDF2_SHA256","libcperciva/crypto/crypto_entropy.c:instantiate","libcperciva/crypto/crypto_entropy.c:reseed","libcperciva/util/insecure_memzero.c:insecure_memzero_func"])
p("C58","Formatted strings are complete and fit their memory",
 "asprintf returns either the exact text with its NUL in a block of exactly that size together with its length, or -1 and keeps no memory; it never writes outside the block it allocated, even if the two formatting passes disagree; humansize returns either the complete text or NULL, never part of a text.",
 "every format result, every length, every allocation outcome and every size",
 "A text of more than INT_MAX characters, a failing second pass and allocation failures between passes are not reached by tests.",
 ["libcperciva/util/asprintf.c:asprintf","libcperciva/util/humansize.c:humansize"])
p("C59","The utility from end to end",
 "Two processes on two machines, with nothing assumed about the library's own components: if 'scrypt enc', with any options, exits with 0, then 'scrypt dec' on what it wrote, with the same passphrase and any options, either exits with 0 and gives exactly the original data, or exits with 1, names the missing resource, and has written a beginning of the data; with -f and enough memory it exits with 0. On any other file, 'scrypt dec' exits with 0 only if the file is a complete container made with this passphrase, and touches the output only if the header is authenticated by it. The salt is generator output seeded in this process. No command line, file, input, clock or CPU makes the process crash (exceptions as in C52).",
 "every pair of command lines, data, passphrases, machines, environments and random seeds",
 "It composes argument parsing, prompting, resource limits, self-tests, key derivation, ciphers and file handling over all inputs; a test runs one pair of commands on one machine.",
 ["main.c:main",SE+":scryptenc_file",SE+":scryptdec_file_prep",SE+":scryptdec_file_copy","libcperciva/crypto/crypto_entropy.c:crypto_entropy_read"])
p("C60","The return code of an encryption names the first obstacle",
 "scryptenc_buf and scryptenc_file return the code of the first failing step in the documented order (parameters or limits, clock, salt, key derivation, AES, and for streams writing the header, reading, writing), and success exactly if none fails, whether the parameters are chosen automatically or given; before the header is complete, nothing is written.",
 "every parameter structure, limits, input, output capacity and failure pattern",
 "The combinations of failing steps and their order cannot be enumerated.",
 [SE+":scryptenc_setup",SE+":scryptenc_buf",SE+":scryptenc_file"])
p("C61","More resources never turn acceptance into refusal",
 "If a file decrypts within the limits on one machine, it decrypts to the same bytes, forced or not, on every machine that has at least the memory limits and the speed of the first and whose user allows at least as much of them (given its allocations succeed); an answer that is not a resource refusal does not become one. In particular what was encrypted with automatically chosen parameters decrypts there without force, provided the time allowed was enough for the minimal 32768 operations; below that minimum the encrypting machine itself refuses to decrypt what it has just produced.",
 "every pair of machines, limits, inputs and passphrases",
 "The checks are done in floating point with roundings at every step; monotonicity has to hold for all pairs of machines.",
 [SE+":checkparams",SE+":pickparams","lib-platform/util/memlimit.c:memtouse",SE+":scryptdec_setup"])
p("C62","Interrupted operations",
 "At every point of a stream encryption, what has been written is a beginning of the final file, depends only on the input read so far and holds back at most one 64 KiB block; if the process is killed there, and any part of its buffered output is lost, the file that remains is a beginning of the container, and no decryption with the same passphrase accepts it as complete (unless 32 bytes inside the data happen to be the HMAC-SHA256 of everything before them). At every point of a stream decryption, nothing is written before the header has been authenticated with the passphrase, and what has been written is a beginning of the plaintext.",
 "every input, passphrase, parameters, machine, way of delivering the input, and every point at which the process is killed",
 "A test can kill a process at a few moments; the claim is about all of them.",
 [SE+":scryptenc_file",SE+":scryptdec_file",SE+":scryptdec_file_copy"])
p("C63","Memory an operation asks for",
 "A key derivation asks the allocator for exactly 128rp + 256r + 64 + 128Nr bytes. An unforced decryption that succeeds, and an encryption with automatic parameters, keeps the 128Nr bytes within the memory limit, but nothing in the memory checks bounds the 128rp bytes: they are bounded only through the time limit (at most 32 bytes for each of the operations allowed, plus rounding). So a hostile header with N=2, r=1, p=2^26 passes a limit of 1 MiB and asks for 8 GiB, and an encryption with a small memory limit and a long time limit uses more memory than the limit.",
 "every machine, memory limit, time limit, input, passphrase and set of parameters",
 "The bounds hold for all headers and limits through floating-point arithmetic; the excess appears only for combinations of limits nobody tests.",
 [SE+":checkparams",SE+":pickparams","lib-platform/util/memlimit.c:memtouse","lib-platform/crypto/crypto_scrypt.c:crypto_scrypt_internal"])
p("C64","Interchangeable passphrases",
 "Two passphrases give the same result in every operation (key derivation, encryption with the same salt, decryption, in buffer and stream form) if they differ only by NUL bytes at the end within 64 bytes, or if one is longer than 64 bytes and the other is its 32-byte SHA-256 digest; a file encrypted under one decrypts under the other. These are exactly the passphrases HMAC's key preparation makes equal; passphrases of at most 64 bytes without a trailing NUL are never interchangeable with each other in this way.",
 "every pair of passphrases, machine, input and parameters",
 "The equivalence is over all passphrases; no test enumerates pairs.",
 ["libcperciva/alg/sha256.c:HMAC_SHA256_Init","libcperciva/alg/sha256.c:PBKDF2_SHA256","lib-platform/crypto/crypto_scrypt.c:crypto_scrypt",SE+":scryptdec_buf",SE+":scryptenc_buf"])
p("C65","More output extends the output",
 "If crypto_scrypt succeeds for the same passphrase, salt and parameters with two output lengths, the shorter output is the beginning of the longer one, on any two machines and after any history of calls.",
 "every passphrase, salt, parameters, pair of output lengths, pair of machines and histories",
 "A test compares a few lengths on one machine.",
 ["lib-platform/crypto/crypto_scrypt.c:crypto_scrypt","libcperciva/alg/sha256.c:PBKDF2_SHA256"])
p("C66","The key stream of a file never repeats",
 "In every encrypted file the 16 bytes xored onto one plaintext block differ from those xored onto any other block; so equal plaintext blocks at different places never give equal ciphertext blocks. If, on the contrary, the same salt is used twice with the same passphrase and parameters, the two ciphertexts differ exactly where and as the plaintexts differ.",
 "every input, passphrase, parameters, salt, machine, and pair of block positions",
 "The number of pairs of positions is unbounded; that no two coincide depends on AES being a permutation and on the counter not wrapping.",
 [SE+":scryptenc_buf",SE+":scryptenc_file","libcperciva/crypto/crypto_aesctr.c:crypto_aesctr_stream","libcperciva/crypto/crypto_aes.c:crypto_aes_encrypt_block"])
p("C67","What -v says about the parameters is true",
 "With verbosity asked for, encryption and decryption write one report of the parameters before deriving the key, and without it none. The report gives the N, r and p that are used (those stored in the file), the memory needed as the largest displayable size not above 128*N*r, the memory limit likewise, and - when the limits are not overridden - the expected time 4*N*r*p divided by the measured speed (to a relative 2^-51) and the time limit; a decryption reports exactly when it has read an intact header with valid parameters, an encryption when its parameters are valid, and neither when the limits cannot be determined. The provisos are r < 2^25 and products below 2^64, where the code's arithmetic wraps (F5, F25).",
 "every input, passphrase, parameter set, limit, measured speed, verbosity and force flag, for the buffer and stream forms of both operations, whatever code they return",
 "The report depends on unbounded parameters through 64-bit products and double-precision division; tests look at a few lines of output at most.",
 [SE+":display_params",SE+":checkparams",SE+":pickparams","libcperciva/util/humansize.c:humansize"])
p("C68","What is in the output file when the utility is killed",
 "If scrypt dec is killed at any point of its run (or loses any part of its last buffered writes), the named output file is either exactly as it was before, or the header, parameters and passphrase had all been verified and the file holds a beginning of the decrypted data. If scrypt enc is killed at any point, the output file is as it was before, or empty, or a beginning of the container; an unfinished beginning is never accepted under the passphrase unless its last 32 bytes happen to be a valid HMAC of what precedes them. If the utility finishes, what it reports as written is what the writes add up to, and success means the file was created. (F26: encryption empties an existing output file before it looks at its parameters, limits, salt or key.) The output file is taken not to be the input file.",
 "every input, passphrase, option, output name, prior content of the output file, moment at which the process is killed, and amount of buffered output lost",
 "The set of kill points and partially flushed buffers is unbounded; a test kills at a few moments and sees what the kernel happened to have written.",
 ["main.c:main",SE+":scryptenc_file",SE+":scryptdec_file_copy",SE+":scryptdec_file_prep"])
p("C69","A refused command line is told the first thing wrong with it",
 "Every command line naming an operation either asks for something (C33) or is refused for exactly one reason: the first option, in the order given, that is unknown, lacks its argument, has an argument that is not a number / not a size / out of range / not a passphrase method, or is a second passphrase source; failing that, the first of: wrong number of operands, explicit parameters incomplete, -m zero, passphrase and input both from standard input. A refused command line prints the message that names that option, its value or its permitted range (and the usage message where the reason is syntactic), exits with 1, opens nothing and reads nothing. A missing or unknown operation gets the usage message.",
 "every command line (any number and length of arguments, no NUL bytes), every SIZE_MAX below 2^64, every behaviour of strtod",
 "The space of command lines is unbounded and options interact through their order; tests try a handful of wrong command lines and do not compare messages.",
 ["main.c:main","lib/util/passphrase_entry.c:passphrase_entry_parse","libcperciva/util/getopt.c:getopt"])
p("C70","Key derivation from several threads",
 "Any number of threads may call crypto_scrypt in one process at the same time, including as the process's first use of it. A call that returns returns exactly what the same call returns alone, on any processor and with any routine: the same return value, errno and output, and so the RFC 7914 key when it returns 0. No interleaving leads to a call through an unset function pointer, to a SHA-256 or smix routine for which no feature query said yes, or to a feature reported that the processor lacks; the only abort is that of a call's own self-test when its memory is refused (F14). No thread can be held up by the others: four of its own steps on the shared variable are enough. A query that overlaps the first one may miss a feature (F27), which costs speed only. Undisturbed, a query, the selection and a call are the sequential ones.",
 "every number of threads, every schedule of their accesses to the library's static variables, all arguments, every behaviour of the allocator and every choice of SHA-256 routine block by block",
 "The number of interleavings is unbounded and a test cannot force the ones inside the few instructions of the first call; a sanitizer sees only the schedule that happened.",
 ["lib-platform/crypto/crypto_scrypt.c:crypto_scrypt","lib-platform/crypto/crypto_scrypt.c:selectsmix","libcperciva/alg/sha256.c:hwaccel_init","libcperciva/cpusupport/cpusupport.h:CPUSUPPORT_FEATURE__"])
p("C71","AES from several threads once an implementation is selected",
 "Once some call has selected the AES implementation, or where the processor has no AES instructions, any number of threads may expand keys and encrypt blocks at the same time: each gets the FIPS 197 encryption of its own block under its own key, or the report that its key could not be expanded. This is not so for overlapping first uses on a processor with AES instructions (F27: a key made for one implementation is used by the other), nor for the random-number generator (F28: two threads can be given the same bytes), which are shown to go wrong in explicit schedules. Undisturbed, a thread gets what the sequential functions give.",
 "every number of threads, every schedule of their accesses to the selection variable, all keys and blocks, every allocator behaviour",
 "The number of interleavings is unbounded and the windows are a few instructions wide.",
 ["libcperciva/crypto/crypto_aes.c:hwaccel_init","libcperciva/crypto/crypto_aes.c:crypto_aes_key_expand","libcperciva/crypto/crypto_aes.c:crypto_aes_encrypt_block","libcperciva/crypto/crypto_entropy.c:generate"])
p("C72","Diagnostics: destination, text, errno and memory over any history, whole lines from several threads",
 "After any history of calls of the diagnostics functions, a message goes to the destination asked for last (stderr unless syslog was), with the priority set last (warning if none was), and consists of exactly: the last component of the program name set last (stderr only; the word (unknown) if there is none), the caller's text (cut off after 4095 characters for syslog, whole on stderr), and the system's text for errno exactly where the function reports errno: always for warn, if errno is not 0 for warnp, never for warnx and warn0. warn and warnx leave errno as it was whatever printing does to it, warnp and warn0 clear it. Other calls print nothing. At every moment at most one copy of the name is allocated, none is freed twice, the exit handler is registered at most once and exactly if a name was set, and after exit nothing is left. Whatever the schedule of several threads, stderr holds whole messages, followed at most by a beginning of the one being printed, and no thread waits for ever. The connection to syslog is closed exactly when messages stop going there.",
 "every history of calls, every caller text and errno, every effect of printing on errno, failing allocation of the name, every number of threads and every schedule",
 "Histories and schedules are unbounded; that errno survives depends on what each stdio call does to it, which a test cannot choose.",
 ["libcperciva/util/warnp.c:warnp_setprogname","libcperciva/util/warnp.c:warn","libcperciva/util/warnp.c:warnx","libcperciva/util/warnp.c:warnp_atexit","libcperciva/util/warnp.c:warnp_syslog","libcperciva/util/warnp.h:warnp"])
p("C73","Who is not given a passphrase is told why",
 "Obtaining a passphrase, by any method, prints exactly what the circumstances call for, in order, whatever signals arrive. From a terminal, each line is asked for with its prompt (from a pipe without one); after each pair of lines that differ there is one mismatch notice and the questions begin again. If there is no passphrase there is a complaint naming the obstacle: no terminal device, terminal settings that cannot be read or set, end of input, a read error, out of memory, an environment variable that is not set, a file that cannot be opened, read or closed or that has more than one line or too long a line (with the file's name). If there is a passphrase there is no complaint, except that the terminal device could not be closed. The utility then adds its own message, does not touch the output and exits with 1.",
 "every method and argument, every input stream and number of mismatching attempts, every failure of a library call, every arrival of signals",
 "The dialogue has no bound on its length and the failures (close, allocation, terminal settings) cannot be provoked reliably.",
 ["libcperciva/util/readpass.c:readpass","libcperciva/util/readpass_file.c:readpass_file","lib/util/passphrase_entry.c:passphrase_entry_readpass","main.c:scrypt_mode_enc_dec"])
p("C74","Everything a run prints",
 "What a run of the utility prints on stderr (apart from what obtaining the passphrase prints, C73, and the lines about failing services and self-tests, C75) is exactly this, in this order, and nothing else: that the input cannot be opened; or that no passphrase was obtained; or the report on the parameters if -v asked for it and for explicit parameters the warnings that apply; that the output cannot be opened (by name); a line for each named file that cannot be closed; and one line for the first fault of the operation, with the system's reason exactly if it is the system that failed. It exits with 0 exactly if there is no line for a fault or for a file that cannot be opened. A successful run without -v and explicit parameters prints nothing. info prints the parameters in the header or the line for the header's first fault. The output file is taken not to be the input file.",
 "every request, input, passphrase, limit, every failure of a library call, of opening and of closing",
 "Absence of any other output, in every combination of failures, is not something runs can show.",
 ["main.c:scrypt_mode_enc_dec","main.c:scrypt_mode_info","lib/scryptenc/scryptenc_print_error.c:scryptenc_print_error","lib/scryptenc/scryptenc.c:scryptenc_file","lib/scryptenc/scryptenc.c:scryptdec_file_prep"])
p("C75","A failing service is named",
 "When the source of randomness fails, a line names the operation on /dev/urandom (or the allocation) that failed, with the system's reason or 'EOF', and a second one the stage at which it failed (initialising, reading, closing); a failure to close after a failed read is reported too; when it succeeds, nothing is printed. When a clock cannot be read or has no resolution, exactly one line names that clock; measuring the speed of the computer prints that line exactly if it ends with the code for a clock failure. humansize prints a line exactly if it returns no text. The self-tests of SHA-256 never print anything; those of AES complain only if there was no memory for the round keys or OpenSSL is wrong; those of scrypt ('please report bug!') only if their memory could not be allocated or released. Whatever the instructions of the machine compute, the first available SHA-256 routine and smix routine that passes its test is selected, and exactly those tried before it are reported, by name.",
 "every answer of open, read, close, malloc and of the clocks, every number of reads and of interrupted closes, every history of the generator, every configuration and set of processor features",
 "Failures of the random device, of clocks and of the allocator at each point are not produced by running the program.",
 ["libcperciva/util/entropy.c:entropy_read","libcperciva/util/entropy.c:entropy_read_fill","libcperciva/util/monoclock.c:monoclock_get","libcperciva/util/monoclock.c:monoclock_get_cputime","libcperciva/util/monoclock.c:monoclock_getres","lib/scryptenc/scryptenc_cpuperf.c:scryptenc_cpuperf","libcperciva/util/humansize.c:humansize","libcperciva/alg/sha256.c:hwaccel_init","libcperciva/crypto/crypto_aes.c:hwaccel_init","lib-platform/crypto/crypto_scrypt.c:selectsmix"])
p("C76","What a key derivation leaves in freed memory",
 "A key derivation that succeeds releases exactly three blocks, of the sizes it asked for, and the last of them holds data M from which, with the passphrase, every key of that derivation follows by a single PBKDF2 iteration, without the memory-hard function (finding F21); after every successful encryption such a block has been released, and the key made from it and the passphrase is accepted by the header of the result and decrypts it. A derivation that fails releases its blocks as the allocator gave them, unless it failed only because memory could not be unmapped. Watching the released blocks changes nothing else about the derivation.",
 "every passphrase, salt, set of parameters, output length, allocator behaviour, processor and choice of implementation",
 "The contents of released memory are not observable by running the program.",
 ["lib-platform/crypto/crypto_scrypt.c:crypto_scrypt_internal","lib/scryptenc/scryptenc.c:scryptenc_setup","lib/scryptenc/scryptenc.c:scryptenc_buf"])
p("C77","Verbose changes nothing but the report",
 "The verbose flag of scryptenc_buf, scryptdec_buf, scryptenc_file, scryptdec_file and scryptdec_file_prep changes nothing but the report of the parameters: whenever the verbose call returns, the same call without the flag returns the same code, parameters, output, streams, key lifecycle and messages, minus that report; and whenever the quiet call returns and there is memory to format the report, the verbose call returns with the same outcome plus at most that report. In the same way, for every command line, adding -v in front of the options changes neither the exit code nor the files opened, read and written, nor any message except that report; a refused command line, info, and a command line that has -v already are not affected at all.",
 "every input, output buffer, passphrase, parameters, limits, environment and command line",
 "Two runs are compared for every input and every behaviour of the system; a test compares a few.",
 ["lib/scryptenc/scryptenc.c:checkparams","lib/scryptenc/scryptenc.c:pickparams","lib/scryptenc/scryptenc.c:display_params","main.c:main","main.c:scrypt_mode_enc_dec"])
p("C78","What the mixing phase of a key derivation accesses",
 "Whatever the password and the salt, the sequence of memory elements that the mixing phase of a successful key derivation reads and writes (of the block, the table V, the work area and the local array of salsa20_8, in order, with either routine) is fixed by the routine, N, r and p, except for which entries of V the second loop looks up: these are the ones of RFC 7914, Integerify(X) mod N. For each of the p blocks V is first written entry by entry, in order, and only then read; during the filling nothing accessed depends on the password. Of B, one block after the other, every byte is read exactly once and then written exactly once, and nothing beyond B is accessed. Two derivations with the same parameters make the same accesses if and only if they look up the same entries: this sequence is exactly what someone who observes addresses can learn from the mixing phase (p at most 2^25, see F13; the accesses of PBKDF2 are not included).",
 "every password, salt, N, r, p (up to 2^25), output length, allocator behaviour, both routines",
 "Independence of secret data is a statement about pairs of runs with all secrets; and a test does not see the addresses accessed.",
 ["lib-platform/crypto/crypto_scrypt.c:crypto_scrypt_internal","lib/crypto/crypto_scrypt_smix.c:crypto_scrypt_smix","lib/crypto/crypto_scrypt_smix.c:blockmix_salsa8","lib/crypto/crypto_scrypt_smix.c:integerify","lib/crypto/crypto_scrypt_smix_sse2.c:crypto_scrypt_smix_sse2"])
p("C79","What the hashing of a key derivation accesses, and what a whole derivation reveals by its addresses",
 "With each of the four SHA-256 block functions, PBKDF2-HMAC-SHA256 accesses memory in a way fixed by the lengths of the password and the salt, the number of iterations and the output length: the list of elements read and written (of the arguments, the contexts, the message schedule, the temporary buffers and the constant tables, the final clearing included) is the same for all contents. The password and the salt are never written and never read beyond their lengths, and a successful derivation reads every byte of both. So of everything a whole successful derivation accesses, only the entries of V looked up while mixing depend on the contents: two successful derivations with the same parameters, routines and output length make the same accesses if and only if their passwords have the same length, their salts have the same length, and they look up the same entries of V. Logging is faithful: forgetting the log gives the code.",
 "every password, salt, N, r, p (up to 2^25), iteration count, output length, previous memory contents, allocator behaviour, block function and mixing routine",
 "Independence of secret data is a statement about pairs of runs with all secrets; a test does not see the addresses accessed, and timing tests sample.",
 ["libcperciva/alg/sha256.c:PBKDF2_SHA256","libcperciva/alg/sha256.c:HMAC_SHA256_Init_internal","libcperciva/alg/sha256.c:SHA256_Update_internal","libcperciva/alg/sha256.c:SHA256_Transform","libcperciva/alg/sha256_shani.c:SHA256_Transform_shani","libcperciva/alg/sha256_sse2.c:SHA256_Transform_sse2","libcperciva/alg/sha256_arm.c:SHA256_Transform_arm","lib-platform/crypto/crypto_scrypt.c:crypto_scrypt_internal"])
p('C80','What overlapping buffers do',
  'crypto_aesctr_stream and crypto_aesctr_buf on buffers that are the same, or have no byte in common, or whose output starts before the input, store exactly what they would store from a copy of the input and change nothing else; the file functions, which encrypt and decrypt their buffer in place, therefore do what they would do with two buffers. scryptenc_buf works when the input lies at or after the 97th byte of the output buffer (so data can be encrypted where it lies) or ends before the output buffer starts; any input byte lying in the first 96 output bytes is lost, and with outbuf = inbuf the call reports success having encrypted its own header. scryptdec_buf works when the plaintext does not fall on the input; if it does, at or before the encrypted data, the plaintext and *outlen are right, but the code is computed from the overwritten input, so an authentic container decrypted in place is reported as invalid unless HMAC-SHA256 collides or the plaintext equals the start of the container.',
  'every memory, every position and length of the input, output and passphrase in it, every cipher implementation and stream state, every key, limits, parameters and outcome',
  'the positions, lengths and stream states are unbounded, each implementation loads and stores in its own granularity, and the failing overlaps report success',
  ['libcperciva/crypto/crypto_aesctr.c: crypto_aesctr_stream, crypto_aesctr_buf','libcperciva/crypto/crypto_aesctr_shared.c','libcperciva/crypto/crypto_aesctr_aesni.c','libcperciva/crypto/crypto_aesctr_arm.c','lib/scryptenc/scryptenc.c: scryptenc_buf, scryptdec_buf, scryptenc_file, scryptdec_file_copy'])

p("C81","Encrypting and decrypting touch memory in a way that does not depend on keys or data",
"Once the key is derived, the list of memory accesses (which bytes of which object are read or written, in which order) made by scryptenc_buf, scryptdec_buf, scryptenc_file and scryptdec_file_copy - building the header, checking its signature, AES key expansion and AES-CTR with the AES-NI and the ARM code or around OpenSSL, HMAC-SHA256 with every SHA256 implementation, the final comparison, the wiping - is the same for all passphrases, salts, parameters, keys and data: it depends only on where the buffers are and how long the input is (for files: on the lengths of the pieces that arrive, on read errors and on how much the output takes). In particular it is the same for the right and the wrong passphrase up to the verdict, and for authentic and tampered data to the end. scryptenc_buf reads exactly the input and the container without its tag and writes exactly the container; scryptdec_buf reads all of its input and writes exactly the plaintext. (What OpenSSL does inside is not logged.)",
"all keys, passphrases, salts, parameters, data, positions and lengths of buffers, sequences of file pieces, points of failure, AES and SHA256 implementations",
"a secret-dependent access is an observable only of the memory system; a test compares outputs and would have to compare the addresses of all pairs of runs",
["lib/scryptenc/scryptenc.c: scryptenc_setup, scryptdec_setup, scryptenc_buf, scryptdec_buf, scryptenc_file, scryptdec_file_copy","libcperciva/crypto/crypto_aesctr.c","libcperciva/crypto/crypto_aesctr_shared.c","libcperciva/crypto/crypto_aesctr_aesni.c","libcperciva/crypto/crypto_aesctr_arm.c","libcperciva/crypto/crypto_aes_aesni.c","libcperciva/crypto/crypto_aes_arm.c","libcperciva/crypto/crypto_verify_bytes.c","libcperciva/alg/sha256.c"])

p("C82","The result of hashing and of key derivation may be stored over what it was computed from",
"SHA256_Buf, HMAC_SHA256_Buf, PBKDF2_SHA256 and crypto_scrypt accept buffers that overlap in any way: the digest or derived key that appears in the output region is the one of the password, salt, key and message that were in memory before the call, nothing outside the output region changes, and a crypto_scrypt call that is refused or fails leaves the common memory as it would leave a separate output buffer. The random generator relies on this: it hashes its state variable V onto itself, and its update and its output are those of SP 800-90A computed with separate variables.",
"every memory, every position and length of password, salt, key, message and output in it, every iteration count, N, r, p, allocator behaviour, block function and mixing routine; every state of the generator and every request",
"the positions and lengths are unbounded and a store that comes before the last load shows only for particular overlaps",
["libcperciva/alg/sha256.c: SHA256_Buf, HMAC_SHA256_Buf, PBKDF2_SHA256","lib-platform/crypto/crypto_scrypt.c: crypto_scrypt","libcperciva/crypto/crypto_entropy.c: update, generate"])

p("C83","The option parser frees its memory exactly once and never touches it afterwards",
"Whatever sequence of calls a program makes to getopt, its registration functions and the variables a caller may set - in any order, as long as each call returns - no memory is freed twice, the option table always lies in allocated memory when it has room for options, and the handler that frees it at exit is registered at most once and whenever there is something to free. A program that parses any number of command lines with GETOPT loops, with any option tables, leaving each loop at its end or in the middle and setting optreset before the next, and that exits at any time, also in the middle of a parse, has at every moment at most one table allocated and none left after exit.",
"every sequence of calls with every argument; every list of parses with every table, argument vector, loop body, point of leaving, allocation outcome and moment of exit",
"double frees and leaks show only for particular histories of resets and abandoned loops, and then usually not in the result",
["libcperciva/util/getopt.c: getopt_atexit, reset, getopt, getopt_setrange","libcperciva/util/getopt.h: GETOPT_SWITCH, GETOPT_DEFAULT"])

p("C84","A file encrypted by one run is decrypted by another without -f",
"If `scrypt enc` ended with exit status 0 and kept to its own limits (it chose the parameters itself and its time limit allows the minimum of 32768 operations, or they were given with --logN, -r, -p without -f and no warning was printed), then `scrypt dec`, without -f, given the same passphrase, allowed at least as much memory and at least as many operations, with a working clock and enough memory for its buffers, exits with status 0 and writes exactly the original data. With the default options on both sides, a machine that reports at least a quarter of the memory and measures at least a sixtieth of the speed of the encrypting one suffices; so does the same machine.",
"every file content and passphrase, every pair of machines (CPU features, word size, memory limits, measured speed), every command line without or with limits, every salt",
"the two runs measure independently; the limits are compared in floating point with rounding in different orders, for every speed, memory size and parameter choice",
["main.c: main","lib/scryptenc/scryptenc.c: pickparams, checkparams, scryptenc_setup, scryptdec_setup","lib-platform/util/memlimit.c: memtouse","lib/scryptenc/scryptenc_cpuperf.c: scryptenc_cpuperf"])

p("C85","After a fork both processes hand out the same random bytes, unless none had been drawn before",
"A process that has already handed out random bytes (a salt, or a buffer filled by crypto_entropy_read) and then forks continues, in the parent and in the child, with the same generator: whatever calls the two make and whatever the system answers them, the salts and random buffers they hand out are the same, one after the other, as long as the calls that ask for random bytes succeed, they ask for the same amounts, and at most 256 generate steps have been taken since the start; neither consults the entropy source (finding F32). So if both encrypt as their first act, under the same passphrase and parameters, the two files have the same header and their ciphertexts differ exactly as the plaintexts do. If on the contrary the process had only decrypted or derived keys before it forked - which never consults the entropy source or advances the generator, whatever the input and outcome - what each process hands out comes from a run of the generator seeded from its own entropy source alone.",
"every history of calls before the fork, every two histories of calls after it, every machine, every behaviour of the system and of the entropy sources of the two processes",
"a test sees two salts of one pair of processes; that they coincide for all continuations, and never do so because of the library when nothing was drawn, is a statement about all histories",
["libcperciva/crypto/crypto_entropy.c: crypto_entropy_read, drbg","lib/scryptenc/scryptenc.c: scryptenc_setup, scryptdec_setup","lib-platform/crypto/crypto_scrypt.c: crypto_scrypt"])

p("C86","No memory is read before it has been given a value, and none is written outside the function's own objects and its output",
"Deriving a key, constructing and checking a header, encrypting and decrypting a buffer or a file: every byte or word the code reads - in memory just obtained from malloc or mmap, in automatic variables, in the parts of the context structures, in the AES key schedule and counter block, in the I/O buffer - was either an input of the call (passphrase, salt, input data, a constant table) or has been written earlier in the same call; and every byte or word written lies within an object of the call's own or within the output region, never in the input, the constant tables or beyond the end of a buffer. So no result can depend on the previous contents of the memory, whatever implementation of SHA-256, AES and of the mixing the machine selects, on success and on every failure.",
"every password, salt, N, r, p, output length, word size, allocator outcome; every memory, position and length of input and output; every segmentation of an input file, every point of a write error; all hardware variants",
"a read of an uninitialised element mostly yields the right result by accident (zeroed pages, values of an earlier call), and a write into padding or an unused part goes unnoticed; a test run under a checker covers the sizes it runs",
["lib-platform/crypto/crypto_scrypt.c: crypto_scrypt","lib/crypto/crypto_scrypt_smix.c","lib/crypto/crypto_scrypt_smix_sse2.c","libcperciva/alg/sha256.c: PBKDF2_SHA256, SHA256_Update, SHA256_Final","libcperciva/alg/sha256_sse2.c","libcperciva/alg/sha256_shani.c","libcperciva/alg/sha256_arm.c","libcperciva/crypto/crypto_aesctr.c","libcperciva/crypto/crypto_aesctr_shared.c","libcperciva/crypto/crypto_aesctr_aesni.c","libcperciva/crypto/crypto_aes_aesni.c","libcperciva/crypto/crypto_aes_arm.c","lib/scryptenc/scryptenc.c: scryptenc_setup, scryptdec_setup, scryptenc_buf, scryptdec_buf, scryptenc_file, scryptdec_file_copy"])

p("C87","A file opens with one passphrase only",
"If scryptdec_buf accepts one container with two passphrases - on any two machines, with any resource limits, any acceleration - then the two passphrases are interchangeable (the equivalence of C64) and the plaintexts are equal, or else a collision of SHA-256 can be written down from the passphrases and the header of the container: two different messages, given explicitly, with equal digest. The same holds of scryptdec_file as soon as both runs write anything, however they end, one output then being a beginning of the other. For passphrases of at most 64 bytes without NUL bytes the conclusion is that they are equal. Likewise two crypto_scrypt outputs that agree in one 32-byte block at the same place, whatever the salts and parameters, come from interchangeable passphrases or yield such a collision.",
"every container or file, every pair of passphrases, machines, limits and flags; every pair of key derivations",
"no test finds two passphrases for one file: that none exist short of a SHA-256 collision is a statement about all pairs, about every step between the passphrase and the two comparisons",
["lib/scryptenc/scryptenc.c: scryptdec_setup, scryptdec_buf, scryptdec_file_copy","lib-platform/crypto/crypto_scrypt.c: crypto_scrypt","libcperciva/alg/sha256.c: HMAC_SHA256_Init, PBKDF2_SHA256"])

p("C88","Encrypting or decrypting a file onto itself",
"If the output file is the input file, under the same or another name, both streams of the program run over one file whose contents change under the reader: opening the output empties it, and what the C library passes on of the output can be read back. For every size of the buffers, every choice of the C library of how much to read and to pass on, and every file: scrypt enc leaves an encryption of nothing, in at most 128 bytes, and if everything was accepted reports success (provided that the output buffer has room for 96 bytes; C guarantees 256); the program never encrypts what it has written itself. scrypt dec leaves the file alone if the header or the passphrase is refused or the file cannot be opened for writing; otherwise it decrypts exactly the part the C library had read ahead when the output was opened, never what it has written itself, with the exit status and messages of a file consisting of that part. So a file the library had read in full comes out whole, and of a longer one a beginning of the plaintext is left that is not all of it, at most the read-ahead less 32 bytes.",
"every environment, passphrase, parameters, flags, file contents; every buffer size, every sequence of read and flush sizes of the C library, every amount read ahead",
"the outcome depends on how the reads and the buffered writes of the C library interleave over one file, on buffer sizes and on the length of the file; a test sees one library, one buffer size and short files, which come out right when decrypted",
["main.c: scrypt_mode_enc_dec","lib/scryptenc/scryptenc.c: scryptenc_file, scryptdec_file_prep, scryptdec_file_copy"])

p("C89","How much of the input a call takes",
"Reading is sequential, and what a call has not taken can still be read from the stream afterwards. scryptdec_file_printparams and scryptdec_file_prep take 96 bytes (all, if there are fewer), but only seven if these are not the beginning of a header of version 0, whatever the outcome; nothing if the memory for the cookie is refused. scryptdec_file takes just that if the header, the limits or the passphrase is refused, and 96 bytes if AES is not available; otherwise it reads on: never more than a block of 65536 bytes ahead of what it has written (beyond the header and the signature), never writes what it has not read with 32 bytes more, and takes everything unless a write fails. scryptenc_file takes nothing before the 96 bytes of the header have been accepted, nothing if the parameters, the limits, the salt, the key derivation or AES fail, is never more than a block ahead of what has been written, and takes everything unless a write fails; it never writes more than it has read and 128 bytes.",
"every input, every way it is delivered in pieces, every point of a read or write error, all parameters, limits, passphrases and failures of services",
"how far a stream has been read when a call returns depends on every exit of the functions, on the block structure and on where a write fails; tests look at the output of complete runs",
["lib/scryptenc/scryptenc.c: scryptdec_file_printparams, scryptdec_file_prep, scryptdec_file, scryptdec_file_copy, scryptenc_file"])

p("C90", "One decryption handle, several copies",
  "A handle from scryptdec_file_prep stays usable whatever scryptdec_file_copy returned: no sequence of calls crashes. A call that failed for want of memory or of OpenSSL has read and written nothing and can be repeated; a call that starts behind the header (all earlier ones failed in that way, or the caller put the input back) returns the code of the C08 table for the whole file and on success has written the whole plaintext. Once a call has come to a verdict (success, invalid, unreadable), later calls write nothing and report SCRYPT_EINVAL (SCRYPT_ERDFILE) until the caller puts the input back, so no two calls succeed without that. A call after a failed write that succeeds without the input having been put back exhibits two texts with the same HMAC under the file's key, if the file is genuine.",
  "every file, passphrase and parameters accepted by scryptdec_file_prep, every sequence of calls, every answer of the system and every place to which the output can be written in each of them, every repositioning of the input behind the header",
  "the sequence of calls and the place at which each of them fails are unbounded",
  ["lib/scryptenc/scryptenc.c: scryptdec_file_prep, scryptdec_file_copy, struct scryptdec_file_cookie"])

p("C91","Malformed and repeated options of a getopt switch",
"A getopt loop stops the program when it first reaches its switch, whatever the command line and before any label is run, if an option of the switch is not '-X' (X not a dash) or '--' with something behind it, or if it is, or is an option further up followed by '=' and anything; otherwise the switch is taken and the loop goes on. If there is no memory for the table the program stops too.",
"every switch of any number of labels, every command line, every body of the loop",
"the labels are those of a program not yet written: any number of them in any order",
["libcperciva/util/getopt.c: getopt_register_opt, getopt_setrange, searchopt","libcperciva/util/getopt.h: GETOPT_SWITCH, GETOPT_OPT, GETOPT_OPTARG"])

p("C92","Files opened and closed by the utility",
"Whatever scrypt enc, dec or info does, it opens its named input at most once and its named output at most once, after the input, the latter only for enc and dec, and before it exits closes once exactly those it could open, input first; the standard streams are neither opened nor closed, and no other file is opened. If enc or dec succeeds, the named files have been opened and closed.",
"every environment, command line, passphrase and file contents; every failure of fopen, fclose, reading, writing, memory and the library",
"every exit of the functions has its own list of what is open",
["main.c: scrypt_mode_info, scrypt_mode_enc_dec"])

p("C93","Number parsing in any base, with characters after the number, and without bounds",
"PARSENUM and PARSENUM_EX give a number exactly for the texts of which C99 says that strtoimax or strtoumax converts them: optional white space, an optional sign and digits in the base asked for (0: decimal, octal with a leading 0 or hexadecimal with 0x), the whole text, or, if characters may follow, its longest initial part of that form; for doubles likewise with the forms strtod knows. The number is stored if it is within the bounds; otherwise errno is ERANGE, and EINVAL if there is no number. Without bounds an unsigned variable has those of its type and a double takes everything strtod converts without overflow, infinities and NaN included; a signed variable without bounds and a double with a base other than 0 stop the program. As for the options (finding F4), a minus sign before an unsigned number is not an error but negates modulo 2^64.",
"every text, every base from 2 to 36 and 0, every integer variable of up to 64 bits and every double, every pair of bounds, with and without characters after the number",
"the texts, bases and bounds are unbounded; 'no longer part is a number' quantifies over every longer part",
["libcperciva/util/parsenum.h: PARSENUM, PARSENUM_EX, PARSENUM_EX4, PARSENUM_EX6, parsenum_signed, parsenum_unsigned, parsenum_float"])

p("C94","How the options are written, and in which order, does not matter",
"Two command lines of the utility that differ only in how the options are written (-xARG or -x ARG, --foo=ARG or --foo ARG, options without arguments grouped or not, with or without -- before the file names), in the order of different options, or in repeating -f or -v, ask for exactly the same: the runs are the same in every respect - exit status, messages, files opened, read and written - or both command lines are refused with status 1 before any file is touched. Giving a valid -M, -m, -t, --logN, -r or -p that is given again later has no effect. The name under which the program is called has no effect on an accepted command line.",
"every pair of such command lines, of any length, every argument, environment and system behaviour",
"the ways to write n options are too many to be tried, and a dependence on the order can hide in any combination",
["main.c: main", "libcperciva/util/getopt.c: getopt"])

p("C95","Sizes printed by the utility, given back to it",
"The text scrypt prints for a size, given back as the argument of -M, is either refused - exactly if the size, written with a prefix, has a single digit before the decimal point - or read as a size at most that which was printed, at most a tenth of it below it, the same up to 999 bytes, and one that is printed the same. So decrypting with -M set to the memory that info or -v says is required at least is refused as needing too much memory (if more than a mebibyte is needed) unless the figure happens to be exact: the figure is rounded down (finding F34).",
"every size of up to 64 bits; every file or buffer with a genuine header, every passphrase, every machine",
"there are 2^64 sizes, and the refusal has to hold for every header and every state of the machine",
["libcperciva/util/humansize.c: humansize, humansize_parse","lib/scryptenc/scryptenc.c: display_params, checkparams","main.c: main"])

p("C96","More resources do not make an encrypted file weaker",
"If a file is encrypted with parameters chosen automatically, and another with at least the memory, speed and time allowed (by machine and options), the second file's parameters need at least as much memory as the first's, and more than half as much computation; at least as much computation if the memory cost or the memory limit is the same (so a longer -t or a faster machine alone never makes anything smaller). The limits determine the parameters. More memory alone can mean less computation, up to a half (finding F35: 1 MiB gives N = 1024, p = 3 where 2 MiB give N = 2048, p = 1).",
"every two encryptions, buffers or files, every pair of machines and limits of which the second has at least the resources of the first, all data and passphrases",
"the parameters are found by searches in floating point whose results for two machines have to be compared for all pairs",
["lib/scryptenc/scryptenc.c: pickparams, scryptenc_buf, scryptenc_file","lib-platform/util/memlimit.c: memtouse"])

p("C97","Wrong passphrases are indistinguishable",
"Decrypting one buffer or file with two passphrases to neither of which the header answers gives the same run: the same result, the same parameters, output, output length, allocations and messages, and the same memory left behind, whatever the two passphrases are and whether they are refused as wrong or before. For buffers this is so also for two inputs that agree in their first 96 bytes only: nothing after them is looked at. Two runs of the utility that differ only in the passphrase and in how it was obtained do the same from then on, if both passphrases are wrong.",
"every pair of passphrases, every input, parameters, limits and behaviour of the system, every way to obtain the passphrase",
"a leak would be a difference between two runs for some pair of passphrases out of all",
["lib/scryptenc/scryptenc.c: scryptdec_setup, scryptdec_buf, scryptdec_file, scryptdec_file_prep","main.c: scrypt_mode_enc_dec"])

p("C98","What an encryption shows does not depend on the passphrase or on what is encrypted",
"Encrypting other data of the same length, with any other passphrase, under the same circumstances (system, options, salt) gives the same result code, parameters, messages and allocations; as many bytes are written, and the first 64 of them, and everything after the container in the output buffer, are the same. So do two runs of the utility in exit code, messages, files opened and closed. Only bytes 64 on (signature, data, tag) differ; for them: if the same salt comes up twice under the same passphrase, the exclusive or of the two data sections is that of the data (finding F36).",
"every pair of data of the same length, every pair of passphrases, every system, limits and room in the output file",
"a dependence is a difference between two runs for some pair of data or passphrases out of all",
["lib/scryptenc/scryptenc.c: scryptenc_setup, scryptenc_buf, scryptenc_file","main.c: scrypt_mode_enc_dec"])

p("C99","What is recovered from a damaged file",
"If the first 96 bytes of an encrypted file are intact, whatever has happened to the rest (bytes changed, cut off, appended), decrypting it with the right passphrase brings out one byte for every byte between header and the last 32, and each of them (as far as the data went) is wrong in exactly those bits in which the file is damaged at its place: an undamaged place gives the right byte. The result is OK or EINVAL (or ERDFILE if the input cannot be read). A file cut off after k bytes gives the first k - 128 bytes of the data. This is so for buffers and files; what is written to the output before the tag is checked stays there (finding F37).",
"every damage behind byte 96, all data, every passphrase, all parameters, every delivery of the input, every system on which the limits and resources let the decryption proceed",
"there are as many damaged files as files, and each damaged bit must stay where it is",
["lib/scryptenc/scryptenc.c: scryptdec_buf, scryptdec_file, scryptdec_file_copy","libcperciva/crypto/crypto_aesctr.c: crypto_aesctr_stream"])

if __name__=="__main__":
    open("/verif/properties.jsonl","w").write("".join(json.dumps(x)+"\n" for x in P))
    print(len(P))
