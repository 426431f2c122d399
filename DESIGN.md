# Formal model of Tarsnap/scrypt in Lean 4 -- design

Status of each property: MANIFEST.json. This file: what is modelled, how each property is proved, the trusted base, what is
not modelled, and the disagreements found between the code and what a user would expect (F1-F37).

## Layout

    lean/Verif/Basic.lean  bytes, words, bounds-checked arrays, outcomes (ok / undefined behaviour / abort), loops
    lean/Verif/Spec/       small independent specifications: FIPS 180-4, RFC 2104, RFC 8018 (Sha256), RFC 7914 (Scrypt), FIPS 197
                           and CTR mode (Aes), the file format (Format), SP 800-90A HMAC_DRBG (Drbg), IEEE-754 binary64 (Float),
                           number syntax (Number), option syntax (Getopt), command line (CommandLine), size text (Humansize),
                           passphrase lines (Readpass), limits (Limits, Memlimit), the order of checks and its codes (Verdict),
                           x86 and ARM instructions (Intrinsics, IntrinAes), OS entropy (Entropy), byte order (Endian)
    lean/Verif/Model/      the code, function by function; each definition cites file:lines in /repo
    lean/Verif/Proofs/     loop invariants and refinement proofs
    lean/Verif/Props/      the property theorems C##_*, each group with concrete examples that meet the hypotheses
    tools/                 props.py (writes properties.jsonl), manifest.py (writes MANIFEST.json), cite.py (checks citations),
                           axioms.sh (axiom audit), selftest.py (generates Proofs/SelfTest*.lean data), seed.py (wrong programs)
    seeded/                batch*.py: the wrong programs; LOG.jsonl: what happened

## Modelling conventions

* `Byte = BitVec 8`, `W32 = BitVec 32`, `W64 = BitVec 64`: C unsigned arithmetic wraps as in the code. `size_t` is 64 bits wide
  except in crypto_scrypt and memlimit, which take SIZE_MAX as a parameter.
* A function mutating memory returns the new contents. Every array access goes through `rd`/`wr`/`rdSlice`/`wrSlice`; an access
  outside the array is the outcome `Res.ub`. Undefined conversions, shifts, `%s` with NULL, division by zero are `Res.ub` as well.
  A failed `assert` and `abort()` are `Res.abort`. A theorem that says `= .ok …` therefore says: no undefined behaviour, no abort.
* OS and libc calls (fread, fwrite, fopen, fclose, malloc, mmap, read, open, close, clock_gettime, sysinfo, getrlimit, sysctl, sysconf,
  strtod, getenv, isatty, tcsetattr, signal arrival) are oracles, universally quantified. Uninitialised memory is an oracle, too.
* Loops bounded by data are folds or structural recursion. Loops that wait for the world (entropy reads, timing loops, terminal input) run over
  the finite list of answers observed so far; `none`/`waiting` means "still running". No theorem bounds any size or length except
  where the English property does (e.g. messages shorter than 2^61 bytes for SHA-256).
* binary64 arithmetic is exact: value in ℚ with round-to-nearest-even, signed zeros, subnormals, infinities, NaN (Spec/Float).

## Trusted base

* Lean 4.33.0's kernel. Axioms: of the property theorems, 291 depend on propext, Classical.choice and Quot.sound; 31 on propext and
  Quot.sound; 4 on propext; 2 on none (tools/axioms.sh; rerun after changes). No axioms of our own, no compiled evaluation.
* The author's reading of the C code: each definition cites its lines.
* The specifications under Spec/, transcribed from the standards; SHA-256, HMAC, PBKDF2, scrypt and AES are in addition evaluated by the
  kernel on published vectors (the RFC 7914 / FIPS 197 / self-test vectors in Proofs/SelfTest*, Props/Aes, Props/Sha256).
* C semantics on an LP64 platform: 8-bit bytes, two's complement, FLT_EVAL_METHOD = 0, round-to-nearest-even; a correct compiler.
* The instruction semantics in Spec/Intrinsics and Spec/IntrinAes (SSE2, SSSE3, SHA-NI, AES-NI, ARMv8 crypto).
* OpenSSL's AES is external. `EncSys.Good.ossl` assumes it computes FIPS 197 AES for 32-byte keys and 16-byte blocks; C24 and C25 hold
  for any block function; C43 shows a wrong OpenSSL is caught by the self-test for the two test vectors.
* ISO C's definition of strtoimax/strtoumax (modelled in Model/Parsenum), of fgets, fread, fwrite (Model/Readpass, Model/Enc). strtod is an
  oracle; theorems that need it say `GoodStrtod`, which is satisfiable (`exStrtod_good`).

## What is not modelled

* Whether the compiler keeps the stores of insecure_memzero, or makes copies of its own in registers and spill slots (the function itself and the
  scratch arrays of sha256.c and crypto_entropy.c are in Model/Scratch, C57); micro-architectural timing (C27, C78, C79, C81 are about the access and
  branch trace of the source).
* The memory model of C for threads: Model/Threads (C70, C71) takes each access to a static variable as one indivisible step of a total order, while
  C11 calls these unsynchronised accesses a data race.
* Text of errno messages (strerror) and the conversion of format strings (the caller's text is an input of Model/WarnState).
* Alignment padding of AES key structures (C49 covers align_ptr itself). The wrappers SHA256_Transform_*_with_W_S, which only pass the arrays on, and
  the "Unsupported AES key length" warnings, which no caller can reach (the length is asserted to be 16 or 32 before).
* autoconf results: oracle Booleans. What CPUID and getauxval return: oracle values (Model/CpuSupport models the probing code). vsnprintf's conversion of a format: an oracle text per pass (Model/Asprintf).
* main.c: a session in which standard input is the input file and has neither ended nor failed counts as still running; what
  opening the output does to the input (same file) is the oracle `trunc`; Model/InPlace (C88) models both
  streams over one file, with the buffers of the C library.
* An input stream is a list of the pieces successive reads deliver plus a flag "ends in a read error". ferror is sticky and the code looks at it
  whenever a read is short, so a transient error that a later fread would recover from is covered by the same flag.

## Properties: model and proof

| id | model | theorems | method |
|----|-------|----------|--------|
| C01 buffer round trip | Enc | C01_roundtrip, _forced | both sides refined to Spec/Format; xor stream is an involution |
| C02 stream round trip, any chunking | Enc | C02_roundtrip | loop invariants of encLoop/decLoop over an arbitrary segmentation |
| C03 output format | Enc | C03_buf, C03_file | refinement to `Spec.IsContainer` |
| C04 buffer = stream | Enc | C04_* | both equal the specification; verdict tables compared |
| C05 only genuine encryptions decrypt | Enc | C05_buf, C05_file | success implies the three checks; converse construction of the container |
| C06 tampering | Enc | C06_* | reduction: acceptance of a changed file exhibits an HMAC collision/forgery (stated explicitly) |
| C07 wrong passphrase | Enc | C07_* | EPASS iff header ok and signature differs; nothing written |
| C08 error classification | Enc | C08_* | the code equals the first failing check of an independent ordered table (Spec/Verdict) |
| C09 what dec writes | Enc | C09_written | loop invariant |
| C10 parameters reported | Enc | C10_* | refinement |
| C11, C12 picked parameters | Params, Memlimit, Cpuperf | C11_*, C12_maximal | monotonicity and exactness of binary64 rounding; induction on the search loop |
| C13, C14 limit check | Params | C13_*, C14_roundtrip | exact verdict; division/rounding lemmas |
| C15, C16 explicit parameters, force | Params, Enc | C15_*, C16_* | case analysis, refinement |
| C17 memory limit | Memlimit | C17_* | case analysis, rounding |
| C18-C20 SHA-256, HMAC, PBKDF2 | Sha256 | C18_*, C19_*, C20_* | context represents a message (invariant); rotating register file = FIPS schedule |
| C21-C23 scrypt | Smix, CryptoScrypt | C21_*, C22_*, C23_* | loop invariants over bounds-checked memory; SSE2 permutation refinement |
| C24, C25 CTR | AesCtr | C24_*, C25_* | stream position invariant; simulation between paths |
| C26 hardware AES | Aes | C26_* | key schedule and round functions equal FIPS 197 for all keys and blocks |
| C27 comparison | Enc | C27_verify | induction; access trace depends on the length only |
| C28 byte order | Endian | C28_* | bit-level |
| C29, C30 sizes | Humansize | C29_*, C30_parse | arithmetic; automaton = grammar |
| C31 numbers | Parsenum | C31_* | scanner = grammar (Spec/Number) |
| C32 options | Getopt | C32_* | refinement of the stateful parser to the relation `Spec.Parses`, any table, any argv |
| C33 command line | Main | C33_* | folding of option events = `Spec.Requests`; existence, uniqueness, refusal |
| C34, C35 utility | Main | C34_*, C35_* | composition of the above; every environment |
| C36-C38, C47 passphrases | Readpass | C36_*, C37_*, C38_*, C47_* | induction on the stream; trace invariant under arbitrary signal arrivals |
| C39, C40 entropy | Entropy | C39_*, C40_* | refinement of request histories to SP 800-90A; list induction |
| C41 release of secrets | Enc, Main | C41_* | event traces |
| C42 accelerated SHA-256 | Sha256Hw | C42_transforms | refinement for all states and blocks |
| C43 selection | HwSelect, CryptoScrypt, Aes | C43_* | case analysis; the self-test vectors are evaluated by the kernel |
| C44 info | Enc, Params | C44_* | direct |
| C45 speed estimate | Cpuperf | C45_* : induction on observed steps; C45_reading/C45_resolution/C45_interval against a separate description of the clocks, rounding error bounds, C45_accurate |
| C46 salt | Enc | C46_* | refinement |
| C48 messages | Warnp | C48_* | case analysis |
| C49 alignment | Warnp | C49_aligned | modular arithmetic |
| C50 program name | Warnp | C50_* | induction |
| C51 hostile input | Enc | C51_* | the functions are total: `.ok` for every input |
| C52 the utility never crashes | Main + everything it calls | C52_* | case analysis over main's paths, using C33/C51/C36/C37 totality; the listed exceptions are hypotheses |
| C53 state does not matter | Process (static variables, answers of the components computed, histories) | C53_* | invariant of the static variables over histories; C01/C02/C05/C22/C43 for single calls |
| C54 salts | Process, Entropy | C54_salts | induction over the history, composing C39_history |
| C55 cost | Cost (the KDF code of ScryptInternal/Smix with a counter on every Salsa20/8 core) | C55_erase, C55_cost, C55_exists, C55_speed_unit | erasing the counter gives back the code; counts by loop induction |
| C56 CPU features | CpuSupport (detection, cached queries, the three selections with queries; an instruction the processor lacks is UB), Spec/Cpu | C56_queries, C56_sha256, C56_aes, C56_smix, C56_history | induction over query lists; simulation of guarded by unguarded code; invariant over histories; C56_*_selects (Props/CpuForget): the guarded selections choose as those of C43 |
| C57 wiped working memory | Scratch (insecure_memzero, sha256.c and crypto_entropy.c with their automatic variables) | C57_memzero, C57_sha256, C57_sha256_buf, C57_hmac, C57_hmac_buf, C57_pbkdf2, C57_drbg_update, C57_instantiate, C57_reseed: lockstep with the functions without stack (Proofs/Scratch) |
| C58 formatted strings | Asprintf (asprintf over vsnprintf and malloc, humansize over it) | C58_asprintf, C58_failure, C58_bounds, C58_humansize |
| C59 the utility end to end | Utility (main in a process: main.c over Process, the components answered by the machine) | C59_no_crash, C59_roundtrip, C59_forced, C59_authentic, C59_salt; example: two complete processes on any two machines (exDecrypted) |
| C60 codes of an encryption | Enc (scryptenc_setup, scryptenc_buf, scryptenc_file) | C60_buf, C60_file; with C11_enc_buf, C11_enc_file (automatic parameters as found in the header) |
| C61 more resources | Enc, Params, Memlimit | memtouse_mono (memory limit), slow_mono (rounded time test) give C61_limits; C61_dec_buf, C61_dec_file, C61_no_refusal, C61_auto, C61_auto_file; C61_corner(_buf): the 32768 operation minimum |
| C62 interrupted operations | EncSteps (the file functions with their reads and writes recorded; erasing the record gives the plain model) | erase_encFile, erase_decFile; loop invariants give EncPoint/DecPoint for every prefix of the record; C62_enc, C62_enc_killed, C62_dec, C62_dec_cut |
| C63 memory an operation asks for | Memory (memTotal against the allocations recorded by Cost) | C63_asked from C55; withinMemory from the limits (C10/C11/C13 tests) and rounding bounds; C63_F23_dec/enc are the witnesses of finding F23 |
| C64 interchangeable passphrases | Enc, CryptoScrypt, Sha256 | `Twin` (Props/Twins, inductive relation) is equality of RFC 2104 key blocks (C64_twin_iff); every operation depends on the passphrase only through HMAC keys (the refinements of C01-C08, C21) |
| C65 more output extends the output | CryptoScrypt | C21_exact on both sides; PBKDF2 blocks are independent of the length |
| C66 the key stream never repeats | Enc, AesCtr, Aes | AES is injective (Proofs/AesInj: S-box and MixColumns inverted, induction over rounds); counter blocks are distinct; C03 gives the bytes |
| C67 what -v says | Params, Humansize, Enc | `ReportsOn`/`Told` (Spec) give the text; display_params inverted through humansize_spec and the rounding bounds of Float; carried through checkparams, pickparams and the four operations |
| C68 killed utility | Model/MainSteps, EncSteps, Main | the run of main instrumented with its disk effects (create/truncate, read, write), `C68_trace` proves the instrumented run is the run; `Possible` (Spec) = file contents after a prefix of the effects with any part of the buffered writes lost; decryption, encryption and completed runs follow from C62's per-point invariants |
| C69 why a command line is refused | Main, Getopt, Parsenum, Humansize | `Refusal` (Spec/Refusal): first objectionable option, else first failing final check; each step of the option loop shown to object exactly when the Spec does (`Says`), induction over the options; `C69_reason`: refused iff it asks for nothing, reason unique |
| C70 key derivation from several threads | Threads, CryptoScrypt, HwSelect, CpuSupport | threads as machines with one access to a shared static per step, `interleave` over a schedule; rely-guarantee invariant (`interleave_inv`), progress by a per-thread measure (`interleave_progress`); results equal to the call made alone by `internal_total` |
| C71 AES from several threads | Threads, Aes, Entropy | the same invariant with the variable fixed (after first use) or only ever "software"; explicit schedules for F27 and F28 |
| C72 diagnostics | WarnState, Threads | the module's statics as a state machine over histories of calls, agreement with the history-only specification (Spec/Diagnostics) by induction; counting invariant for the name; lock invariant over `interleave` for whole lines |
| C73 who is not given a passphrase is told why | Readpass, Main | complaints are actions of the trace of `readpass`; the relation `Talk` (Spec/PassTalk) with its `Dialogue`, by induction over the reading loop; `Talk` is shown to be a function (`C73_unique`) |
| C74 everything a run prints | Main, Enc, Warnp | `MainOut.msgs` computed exactly, case by case (Props/Account), from the verdicts of C08/C60/C44 and the reports of C67 and warnings of C15 |
| C75 a failing service is named | Services (the messages of entropy.c, monoclock.c, humansize.c and of the selection of implementations), Entropy, Cpuperf | the messages are functions of the same answers as the results; `EntropyLines`, `ClockFault` (Spec/Services) say which call failed; the self-tests pass by the correctness of the implementations (C20, C26, C21) unless memory is missing; Props/BrokenHw takes the routines to be arbitrary functions |
| C76 what a key derivation leaves in freed memory | Residue (crypto_scrypt_internal with the list of the blocks it releases and their contents) | `C76_erase`: forgetting the list gives the derivation of C21; the contents of B after smix is the mixed data of RFC 7914, so the key is PBKDF2(P, B, 1); with C01's container the key opens the file |
| C77 verbose changes nothing but the report | the same models, two runs | relational: `Quieter` (the second run is the first one without the report, or there was no memory to print it) is carried through every function by `Quieter.bind`/`same`/`ite`; C77_enc_buf, C77_dec_buf, C77_enc_file, C77_dec_file, C77_dec_prep, C77_command, C77_otherwise |
| C78 what the mixing phase accesses | Model/Access: the mixing routines, the loop over blocks and the derivation with a ghost log of every element read or written (`Logged`); erasing the log gives the original (C78_erase, C78_erase_smix) | logs independent of the data by a calculus of `HasTr` (the log expression is fixed before the data is introduced), the second loop by the ROMix invariant with the log; Spec/Visits: the entries of RFC 7914; C78_smix, C78_kdf, C78_V, C78_exactly, C78_exists. Not logged here: what PBKDF2 accesses (C79) and the allocation functions; Proofs/AccessB, Props/AccessB: the accesses to B (C78_B, C78_B_bytes) |
| C79 what hashing accesses | Model/AccessHash: the four block functions, SHA256_*, HMAC_SHA256_*, PBKDF2_SHA256 and the whole derivation with the ghost log (`crypto_scrypt_internalTT`); erasing the log gives the original (C79_erase, C79_erase_pbkdf2). Parts of tmp32 and tmp8 used as separate arrays are separate arrays; scalar locals are not logged | relational calculus `SameTr` (two computations on data of the same lengths: same log, related results) for C79_pbkdf2 and C79_kdf; `Upto`/`SomeTr` (every access / some access) for C79_inputs; C79_exactly puts C78 and these together; C79_exists |
| C80 overlapping buffers | Model/Overlap: the stream functions of crypto_aesctr*.c and their callers in scryptenc.c with the caller's buffers as regions of one memory, each byte (portable code) or 16 bytes (AES-NI, ARM) loaded and stored when the C code does it; the stream structure, key and locals are separate objects | simulation `Res.Rel` with invariant: unread input unchanged, output so far stored (C80_stream, C80_buf); equality of the in-place loops with the two-buffer ones (C80_files); C80_enc, C80_dec for the permitted overlaps; C80_boundary, C80_enc_over_input, C80_enc_loses, C80_dec_overlap, C80_dec_in_place for what goes wrong otherwise |
| C81 | Logging versions of everything after the key derivation (Model/AccessEnc): header, signature check, AES key expansion, AES-CTR (portable, AES-NI, ARM), HMAC, crypto_verify_bytes, the buffer functions and the file loops, with the wiping. Erasing the log gives the model with overlapping buffers (C80), hence the model of the functions. | Relational: `SameTr` says two runs log the same list and their results are related (same position, same key kind; same lengths of pieces); proved function by function, then `one_log` turns it into one list for all runs. Exact sets of bytes read and written by `Acts`/`Moves` judgements. |
| C82 output over input in hashing and key derivation | Model/OverlapHash: sha256.c, crypto_scrypt.c and the hashing in crypto_entropy.c with the caller's buffers as regions of one memory, each byte read and stored when the C code does it; contexts, local arrays and the allocated B, V, XY are separate objects; for the generator the 64 bytes of the static state and the 65 bytes of the stack frame of `update` | each function equals the one on values read beforehand, because it reads all before it stores (`SHA256_UpdateM_eq`, ..., `pbkdf2BlocksM_rel`: the blocks stored so far lie in the output region); then the specifications of C20-C23 and C39 apply |
| C83 memory of the option parser | Model/GetoptHeap: the pointer `opts` as an address, the blocks in use, the exit handlers; every function of getopt.c and the loop of getopt.h run beside the model of the contents (Model/Getopt); freeing a block not in use is undefined | invariant over calls (`HeapAgrees`: pointer null or in use, table non-empty implies pointer, handler registered) and over the loop (`Tidy`: nothing but the table in use; getopt_setrange is reached once per reset); C32 shows that the premise is met |
| C84 what one run encrypts another decrypts | Props/Recover: the utility as a process (Model/Process `utility`), measured speed and memory limit as in the code (`Measures`, `MayUse`), no -f | the parameters chosen or accepted are below the limits (C61 `picked_pass`, `explicit_pass`); the limits of the decrypting run are at least as large in floating point (monotonicity of rounding and of the divisions); the defaults 1/8 vs 1/2 of memory and 5 vs 300 s; RecoverEx: two complete runs with default options |
| C85 fork | Props/Fork, ForkEx: the statics of a process (Model/Process) continued twice, with two entropy sources (`forked`); no code of the library is involved in a fork, so nothing is added to the model | Proofs/DrbgDue: while the generator is not due for reseeding its output is a function of its state and the lengths; Proofs/DecDraws: no decryption ends with SCRYPT_ESALT, so none asks for a salt; history invariant: steps taken ≤ sum over the calls |
| C86 written before read | The access logs of C78, C79 and C81 (Model/Access, AccessHash, AccessEnc), now in order: `WrittenFirst may D tr` (Spec/Defined) says of every access of the log that a read element is in D or was written before it, and a written one is in `may`; the sets (`kdfWrites`, `kdfGiven`, `tables`, `hashVars`, `aesVars`) give the size of each object | Proofs/Defined*: a Hoare-style calculus over logged computations (`Def may D x R P`: x reads only D or what it wrote, then P has a value); context invariants: the first count mod 64 bytes of a SHA-256 buffer, the counter block up to its last byte, the stream block only when bytectr mod 16 ≠ 0, 32 r k words of V after k steps |
| C87 one passphrase | Passphrase commitment of `scryptdec_buf`, `scryptdec_file`, `crypto_scrypt` | small spec (`Collision`, `hmacOuter`, `scryptMixed`); from the verdict of C05/C07 both header HMACs equal, so either the outer SHA-256 inputs differ (collision) or the HMAC keys are equal; those are PBKDF2 block 2, again one HMAC keyed by the passphrase, so equal prepared keys (= C64 twins) or a collision |
| C88 one file as input and output | Model/InPlace: `scrypt_mode_enc_dec` over one file: input buffer, read position, output buffer, what has been passed on (`OneFile`); the C library chooses every read size and flush (`Stdio`) | invariant of the copy loop: fewer bytes are ever passed on than the read position, so every refill finds the end of the file and the loop sees exactly the bytes that were in the buffer: simulation by `scryptdec_file_copy` on that part, `scryptenc_file` on nothing; then C05/C02/C35. Derives what F20 and F30 assume of `trunc`. `C88_enc`, `C88_dec_refused`, `C88_dec`, `C88_dec_whole`, `C88_dec_lost`; Non-vacuity: `exInPlace_enc`, `exInPlace_dec` |
| C89 how much input a call takes | `scryptdec_file_load_header`, `scryptdec_file_prep`, `scryptdec_file`, `scryptenc_file` (Model/Enc), what is left of the input | small spec `headTaken`; invariants of the two copy loops (bytes taken, bytes written, bytes held back), inversion of every exit; outcomes named by the check tables of C08 and C60. `C89_info`, `C89_prep`, `C89_dec`, `C89_enc` |
| C90 one handle, several copies | Handle | C90_defined, C90_fresh, C90_spent, C90_once, C90_whole | one call refined to the C08 table of the file with the bytes already read cut out; induction over the calls for the position of the input |
| C91 getopt switches | Getopt (registration), Spec/Register | C91_refused, C91_taken, C91_no_memory | induction over the lines of the switch: slots registered so far are those of the lines above; search of an option decided by `searchLoop_spec` |
| C92 files opened and closed | Main, Spec/FileLog | C92_files, C92_done | inversion of every exit of the two modes; the history is one of four forms |
| C93 number parsing in general | ParsenumEx, Spec/NumberPrefix | C93_signed, C93_unsigned, C93_no_bounds, C93_no_bounds_double, C93_misuse, C93_double, C93_double_prefix, C93_option_form | strtoScan converts the longest prefix that is a numeral (both directions); then the bounds. strtod's ISO C contract is a hypothesis (`GoodPrefixStrtod`, satisfiable: `exPrefixStrtod_good`). Not covered: `float` variables |
| C94 spelling and order of options | Main, Getopt, Spec/CommandLine, Spec/Spelling | C94_requests, C94_run, C94_last | Spec/Spelling: the equivalence generated by the spellings, swaps and repetitions; by induction both parse (C32) to options that agree in all that Spec/CommandLine looks at; C33 |
| C95 sizes given back | Humansize, Enc | C95_back, C95_which, C95_required_file, C95_required_buf | composition of C29 (largest displayable size not above) and C30 (grammar); injectivity of the displays; C17_bounds, C08 for the refusal; exRequired: it happens |
| C96 more resources, no weaker file | Params, Memlimit, Enc | C96_buf, C96_file, C96_unique, C96_F35 | comparison of two maximal choices (C11, C12 at the interface, PickedFor), monotonicity of memtouse and of the product of doubles (C61) |
| C97 wrong passphrases | Enc, Main | C97_buf, C97_buf_data, C97_prep, C97_file, C97_program, C97_refused_buf, C97_refused_file | comparison of two runs, function by function; what is left of a key derivation when the key is forgotten does not depend on the passphrase. Time is not modelled. |
| C98 what an encryption shows | Enc, Main | C98_buf, C98_file, C98_program, C98_repeated_salt | comparison of two runs as for C97; the exclusive or of two ciphers with one key stream. Nothing is said about what the encrypted bytes tell (that needs assumptions on AES, HMAC and scrypt). |
| C99 damaged files | Enc | C99_file, C99_buf, C99_undamaged, C99_cut | the header decides the key and all tests but the last (C97); bytewise exclusive or with one key stream. Not said: that the tag fails (that needs assumptions on HMAC; see C06, C07 for what is proved). |

Cannot be expressed: secrecy in the computational sense (that ciphertext reveals nothing, that HMAC forgeries are infeasible). C06 is stated as
a reduction instead. The timing half of C27 is about the source-level trace.

## Disagreements between code and expectations found while reading

F1  `scrypt dec` with --logN/-r/-p passes main's checks and then trips `assert` in scryptdec_file_prep (abort, not exit 1).
    Witness: C33_F1_abort.
F2  scryptenc_file / scryptdec_file_copy on a write error free the stream but neither zero nor free the expanded AES key. C41_F2_witness.
F3  `-m nan` is accepted by PARSENUM and trips `assert` in memtouse; `-t nan` is accepted: encryption converts NaN to
    uint32_t (undefined), decryption skips the time limit. C31_nan_accepted, C11_F3_witness, C13_F3_witness.
F4  PARSENUM for unsigned types accepts wrapped negatives, e.g. `-p -18446744073709551615` means 1. C31_negative_accepted.
F5  display_params computes 128*r in 32 bits: wrong minimum for r >= 2^25; and shifts by header[7], undefined for
    logN >= 64 (`info` does not validate the header). C44_F5_shift.
F6  memtouse with maxmemfrac = 1.0 and no system limit converts 2^64 to size_t (undefined). The CLI cannot reach it. C17_F6_witness.
F7  main ignores fclose failure of the output file (warning only), and never checks stdout: exit 0 although data may be
    lost. C35_F7_fclose.
F8  readpass_file treats a read error after the first line as EOF; lone CR and NUL truncate silently. C37_read_error_accepted.
F9  readpass with a line of 2048+ bytes: the confirmation read consumes the rest of the first line. C36_long_line.
F10 PBKDF2_SHA256 with c = 2^64-1 never terminates (the uint64_t counter wraps); c = 0 behaves as c = 1. (C20)
F11 The reference crypto_scrypt divides by zero for p = 0 or r = 0 and accepts N = 1. C22_F11_ref_p0.
F12 crypto_scrypt: if munmap of V fails, -1 is returned after the output buffer was written, and V stays mapped. (C23)
F13 crypto_scrypt computes `&B[i * 128 * r]` with a uint32_t i: `i * 128` wraps for i >= 2^25, so for p > 2^25 (accepted
    when r*p < 2^30) blocks from 2^25 on are never mixed and the first ones are mixed several times: not RFC 7914.
    C21_F13_unmixed, C21_F13_twice.
F14 A failed allocation during the scrypt self-test counts as a broken implementation: SSE2 is disabled for the rest
    of the process, or the program abort()s if the generic test cannot allocate. C43_F14_abort.
F15 `info`/verbose display: when asprintf fails while building the text, NULL is passed to a %s conversion (undefined). (C44)
F16 The HMAC_SHA256_CTX on the stack (it holds the inner and outer key states) of scryptenc_file and scryptdec_file_copy is
    not cleared on their error paths. (C41; only the derived key, the AES key, the stream, the cookie and the passphrase are tracked)
F17 For 96 <= length < 128 the two decryption interfaces report different codes: scryptdec_buf gives EINVAL/EVERSION before
    looking at the parameters, scryptdec_file examines the header first. Both reject. (C04)
F18 entropy_read_done retries close() after EINTR; on Linux the descriptor is already closed then, so the retry fails with EBADF and a complete
    read is reported as a failure (or closes somebody else's descriptor). (C40: the model takes whatever close answers)
F19 Confirmation compares the lines before the line terminator is removed: input "abc\nabc" without a final newline never matches. (C36)
F20 `scrypt enc -f x x` (output onto the input file) exits 0 with a container of empty data: the plaintext is lost. C35_F20_same_file, C88_enc.
F21 crypto_scrypt frees B, XY and V without zeroing them (crypto_scrypt.c:144-157), although its callers zero the derived key. The key is PBKDF2(passwd, B, 1, 64): whoever finds B in freed memory can test password guesses against the container's header at the price of one PBKDF2 iteration each, without the memory-hard function. A seed buffer is likewise left as it is when entropy_read or RDRAND fails half way (it is not used). Proved: `C76_left`, `C76_opens`, `C76_enc_buf`.
F22 pickparams raises the operation limit to 32768 (scryptenc.c:122-123), checkparams does not: where speed * maxtime is below that, an encryption with automatic parameters succeeds (logN 10, r 8, p 1) and the same command line refuses to decrypt the result as too slow (C61_corner_buf).
F23 checkparams and pickparams hold 128Nr against the memory limit but not the 128rp bytes of the block array: with a limit of 1 MiB a header N=2, r=1, p=2^26 passes and 8 GiB are asked for (EKEY if refused), and `enc` with a small -M and a long -t picks p such that the blocks alone exceed the limit (C63_F23_dec, C63_F23_enc).
F24 HMAC's key preparation makes passphrases interchangeable: one longer than 64 bytes and the 32 bytes of its SHA-256 digest; one shorter than 64 bytes and the same with NUL bytes appended (C64_F24, C64_recover). The utility cannot be given NUL bytes; library callers can.
F25 display_params computes 4*N*r*p in 64 bits: for N = 2^62 (valid until the limits refuse it) -v announces the time of zero operations, 0.0 seconds (C67_F25).
F26 main.c opens (creates or empties) the output file of `enc` before scryptenc_file checks parameters, limits, salt or key (main.c:157-170), so an encryption that then fails - or is killed while deriving the key - has destroyed an existing output file; `dec` verifies the header first (C68_F26).
F27 The selection variables are written before they are settled: crypto_aes.c:179 stores HW_SOFTWARE during the self-test, so a thread whose first use of AES overlaps another's can expand an OpenSSL key and then encrypt with it through the AES-NI code (undefined behaviour, `C71_F27_mixed`); cpusupport.h:50-53 can tell a thread that a feature is missing when it is not (`C70_F27_missed`, costs speed only). crypto_scrypt (the exported library function) is not affected in its results (C70).
F28 crypto_entropy.c keeps the generator's state in an unprotected static: two threads can be given the same random bytes, e.g. the same salt (`C71_F28_same_bytes`).
F29 The self-tests report 'please report bug!' (and disable an implementation) when all that happened is that memory for the test was not available: the implementations themselves are correct (`C75_smix`, `C75_smix_memory_reported`, `C75_aes_memory_reported`).
F30 `scrypt dec x x`: the output is opened (and so the input emptied) once the header has been verified; of a file longer than what stdio has read ahead only that part is decrypted, the exit status is 1, and the rest of the encrypted file is gone. C35_F30_same_file; C35_dec_same_file says what happens in general, C88 derives it from the buffers of the C library.
F31 scryptenc.h says nothing about overlapping buffers. scryptenc_buf copies the header into the output before it reads the data: with outbuf = inbuf it returns SCRYPT_OK and the data is gone (what is encrypted is the header just written). scryptdec_buf decrypts before it checks the signature, and checks it on the input as it then is: with outbuf = inbuf an authentic file gives the right plaintext and SCRYPT_EINVAL (C80_enc_over_input, C80_enc_loses, C80_dec_overlap, C80_dec_in_place).
F32 The random generator is not protected against fork(): the static `drbg` of crypto_entropy.c is copied with the process and not reseeded (no pid check, no pthread_atfork). A process that has encrypted something and forks hands out the same salts in parent and child until the 256th generate step; with one passphrase and parameters the two files share their key stream (C85_twopad). The scrypt utility does not fork; a program using the library may.
F33 When the table of options cannot be allocated (getopt.c:351), getopt calls DIE and the utility is killed by abort() (after a message), instead of exit status 1 (C33_no_memory).
F34 The memory that info and -v say is required "at least" is rounded down (scryptenc.c:70-99, humansize.c:15-58): -M with that figure makes decryption fail with "would require too much memory" unless the figure is exact, and if it has a decimal point ("1.0 GB", what logN = 20, r = 8 shows) -M does not accept it at all (C95).
F35 Allowing more memory for an encryption can reduce the computation an attacker needs (by less than a half): p is rounded down to a whole number after N has doubled (scryptenc.c:152-166; 1 MiB, 98304 operations: N = 1024, p = 3; 2 MiB: N = 2048, p = 1; C96_F35).
F36 The AES-CTR nonce is always 0 and the key depends on passphrase, salt and parameters only (scryptenc.c:526-534, 443-451): if the random number generator repeats a salt (e.g. a cloned virtual machine), two files under one passphrase reveal the exclusive or of their contents, and nothing notices (C98_repeated_salt).
F37 Streaming decryption writes the data before the tag is checked (scryptenc.c:829-879), and nothing removes them when the check fails: a file with flipped bits leaves in the output data wrong in exactly those bits (C99_file), so whoever can change the file chooses the difference; only the exit status tells.

Also: `info` rejects `-P -` although it never reads a passphrase.
