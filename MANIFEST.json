{
 "claims": [
  {
   "property": "C01",
   "status": "proved",
   "theorems": [
    "Scrypt.Props.C01_roundtrip",
    "Scrypt.Props.C01_roundtrip_forced"
   ],
   "note": ""
  },
  {
   "property": "C02",
   "status": "proved",
   "theorems": [
    "Scrypt.Props.C02_roundtrip"
   ],
   "note": ""
  },
  {
   "property": "C03",
   "status": "proved",
   "theorems": [
    "Scrypt.Props.C03_buf",
    "Scrypt.Props.C03_file"
   ],
   "note": ""
  },
  {
   "property": "C04",
   "status": "proved",
   "theorems": [
    "Scrypt.Props.C04_enc_same_bytes",
    "Scrypt.Props.C04_enc_same_code",
    "Scrypt.Props.C04_dec"
   ],
   "note": ""
  },
  {
   "property": "C05",
   "status": "proved",
   "theorems": [
    "Scrypt.Props.C05_buf",
    "Scrypt.Props.C05_file"
   ],
   "note": ""
  },
  {
   "property": "C06",
   "status": "proved",
   "theorems": [
    "Scrypt.Props.C06_short",
    "Scrypt.Props.C06_forgery",
    "Scrypt.Props.C06_tag",
    "Scrypt.Props.C06_header",
    "Scrypt.Props.C06_header_check"
   ],
   "note": ""
  },
  {
   "property": "C07",
   "status": "proved",
   "theorems": [
    "Scrypt.Props.C07_buf",
    "Scrypt.Props.C07_file"
   ],
   "note": ""
  },
  {
   "property": "C08",
   "status": "proved",
   "theorems": [
    "Scrypt.Props.C08_buf",
    "Scrypt.Props.C08_file",
    "Scrypt.Props.C08_prep",
    "Scrypt.Props.C08_version"
   ],
   "note": ""
  },
  {
   "property": "C09",
   "status": "proved",
   "theorems": [
    "Scrypt.Props.C09_written"
   ],
   "note": ""
  },
  {
   "property": "C10",
   "status": "proved",
   "theorems": [
    "Scrypt.Props.C10_enc_buf",
    "Scrypt.Props.C10_enc_file",
    "Scrypt.Props.C10_dec"
   ],
   "note": ""
  },
  {
   "property": "C11",
   "status": "proved",
   "theorems": [
    "Scrypt.Props.C11_within_limits",
    "Scrypt.Props.C11_total",
    "Scrypt.Props.C11_errors",
    "Scrypt.Props.C11_F3_witness",
    "Scrypt.Props.C11_enc_buf",
    "Scrypt.Props.C11_enc_file"
   ],
   "note": ""
  },
  {
   "property": "C12",
   "status": "proved",
   "theorems": [
    "Scrypt.Props.C12_maximal"
   ],
   "note": ""
  },
  {
   "property": "C13",
   "status": "proved",
   "theorems": [
    "Scrypt.Props.C13_invalid",
    "Scrypt.Props.C13_forced",
    "Scrypt.Props.C13_verdict",
    "Scrypt.Props.C13_errors",
    "Scrypt.Props.C13_time_test",
    "Scrypt.Props.C13_F3_witness"
   ],
   "note": ""
  },
  {
   "property": "C14",
   "status": "proved",
   "theorems": [
    "Scrypt.Props.C14_roundtrip"
   ],
   "note": ""
  },
  {
   "property": "C15",
   "status": "proved",
   "theorems": [
    "Scrypt.Props.C15_buf",
    "Scrypt.Props.C15_file"
   ],
   "note": ""
  },
  {
   "property": "C16",
   "status": "proved",
   "theorems": [
    "Scrypt.Props.C16_buf",
    "Scrypt.Props.C16_file",
    "Scrypt.Props.C16_same_buf",
    "Scrypt.Props.C16_same_file"
   ],
   "note": ""
  },
  {
   "property": "C17",
   "status": "proved",
   "theorems": [
    "Scrypt.Props.C17_bounds",
    "Scrypt.Props.C17_not_less",
    "Scrypt.Props.C17_error_iff",
    "Scrypt.Props.C17_defined",
    "Scrypt.Props.C17_abort_iff",
    "Scrypt.Props.C17_F6_witness"
   ],
   "note": ""
  },
  {
   "property": "C18",
   "status": "proved",
   "theorems": [
    "Scrypt.Props.C18_streaming",
    "Scrypt.Props.C18_buf",
    "Scrypt.Props.C18_split_irrelevant",
    "Scrypt.Props.C18_transform",
    "Scrypt.Props.C18_constants"
   ],
   "note": "For every selectable block function; constants checked against their definition as root fractions of primes."
  },
  {
   "property": "C19",
   "status": "proved",
   "theorems": [
    "Scrypt.Props.C19_streaming",
    "Scrypt.Props.C19_buf"
   ],
   "note": ""
  },
  {
   "property": "C20",
   "status": "proved",
   "theorems": [
    "Scrypt.Props.C20_pbkdf2",
    "Scrypt.Props.C20_too_long"
   ],
   "note": "c = 2^64-1 excluded: the C loop counter wraps and the loop never ends (finding F10)."
  },
  {
   "property": "C21",
   "status": "proved",
   "theorems": [
    "Scrypt.Props.C21_rfc7914",
    "Scrypt.Props.C21_exact",
    "Scrypt.Props.C21_F13_unmixed",
    "Scrypt.Props.C21_F13_twice",
    "Scrypt.Props.C21_returns_zero"
   ],
   "note": "RFC 7914 for p <= 2^25; C21_exact gives the value for every accepted p (finding F13: 32-bit block index)."
  },
  {
   "property": "C22",
   "status": "proved",
   "theorems": [
    "Scrypt.Props.C22_smix",
    "Scrypt.Props.C22_selection_irrelevant",
    "Scrypt.Props.C22_reference",
    "Scrypt.Props.C22_F11_ref_p0"
   ],
   "note": "SSE2 relative to the instruction semantics in Spec/Intrinsics.lean."
  },
  {
   "property": "C23",
   "status": "proved",
   "theorems": [
    "Scrypt.Props.C23_reports",
    "Scrypt.Props.C23_total",
    "Scrypt.Props.C23_no_wrap",
    "Scrypt.Props.C23_errno"
   ],
   "note": "For both size_t widths; F12 is the munmap case."
  },
  {
   "property": "C24",
   "status": "proved",
   "theorems": [
    "Scrypt.Props.C24_stream",
    "Scrypt.Props.C24_buf",
    "Scrypt.Props.C24_involution"
   ],
   "note": ""
  },
  {
   "property": "C25",
   "status": "proved",
   "theorems": [
    "Scrypt.Props.C25_paths_agree",
    "Scrypt.Props.C25_state_equiv"
   ],
   "note": ""
  },
  {
   "property": "C26",
   "status": "proved",
   "theorems": [
    "Scrypt.Props.C26_aesni",
    "Scrypt.Props.C26_arm",
    "Scrypt.Props.C26_dispatch",
    "Scrypt.Props.C26_no_key",
    "Scrypt.Props.C26_bad_length",
    "Scrypt.Props.C26_spec_inverse",
    "Scrypt.Props.C26_spec_vector_128"
   ],
   "note": ""
  },
  {
   "property": "C27",
   "status": "proved",
   "theorems": [
    "Scrypt.Props.C27_verify"
   ],
   "note": ""
  },
  {
   "property": "C28",
   "status": "proved",
   "theorems": [
    "Scrypt.Props.C28_encode",
    "Scrypt.Props.C28_decode16",
    "Scrypt.Props.C28_decode32",
    "Scrypt.Props.C28_decode64",
    "Scrypt.Props.C28_decode_encode",
    "Scrypt.Props.C28_encode_decode32",
    "Scrypt.Props.C28_encode_decode16",
    "Scrypt.Props.C28_encode_decode64",
    "Scrypt.Props.C28_short"
   ],
   "note": ""
  },
  {
   "property": "C29",
   "status": "proved",
   "theorems": [
    "Scrypt.Props.C29_humansize",
    "Scrypt.Props.C29_small",
    "Scrypt.Props.C29_prefixed",
    "Scrypt.Props.C29_oom"
   ],
   "note": ""
  },
  {
   "property": "C30",
   "status": "proved",
   "theorems": [
    "Scrypt.Props.C30_parse"
   ],
   "note": ""
  },
  {
   "property": "C31",
   "status": "proved",
   "theorems": [
    "Scrypt.Props.C31_signed",
    "Scrypt.Props.C31_unsigned",
    "Scrypt.Props.C31_unsigned_plain",
    "Scrypt.Props.C31_negative_accepted",
    "Scrypt.Props.C31_float",
    "Scrypt.Props.C31_float_underflow",
    "Scrypt.Props.C31_float_overflow",
    "Scrypt.Props.C31_float_inf",
    "Scrypt.Props.C31_float_invalid",
    "Scrypt.Props.C31_float_bounds",
    "Scrypt.Props.C31_nan_accepted"
   ],
   "note": ""
  },
  {
   "property": "C32",
   "status": "proved",
   "theorems": [
    "Scrypt.Props.C32_getopt",
    "Scrypt.Props.C32_messages",
    "Scrypt.Props.C32_says"
   ],
   "note": ""
  },
  {
   "property": "C33",
   "status": "proved",
   "theorems": [
    "Scrypt.Props.C33_accepted",
    "Scrypt.Props.C33_refused",
    "Scrypt.Props.C33_version",
    "Scrypt.Props.C33_unique",
    "Scrypt.Props.C33_number_option",
    "Scrypt.Props.C33_F1_abort",
    "Scrypt.Props.C33_no_memory"
   ],
   "note": ""
  },
  {
   "property": "C34",
   "status": "proved",
   "theorems": [
    "Scrypt.Props.C34_untouched",
    "Scrypt.Props.C34_failed",
    "Scrypt.Props.C34_no_session"
   ],
   "note": ""
  },
  {
   "property": "C35",
   "status": "proved",
   "theorems": [
    "Scrypt.Props.C35_dec",
    "Scrypt.Props.C35_cannot_open",
    "Scrypt.Props.C35_enc",
    "Scrypt.Props.C35_exit",
    "Scrypt.Props.C35_info",
    "Scrypt.Props.C35_total",
    "Scrypt.Props.C35_roundtrip",
    "Scrypt.Props.C35_F7_fclose",
    "Scrypt.Props.C35_F20_same_file",
    "Scrypt.Props.C35_dec_same_file",
    "Scrypt.Props.C35_F30_same_file"
   ],
   "note": ""
  },
  {
   "property": "C36",
   "status": "proved",
   "theorems": [
    "Scrypt.Props.C36_defined",
    "Scrypt.Props.C36_waits",
    "Scrypt.Props.C36_passphrase",
    "Scrypt.Props.C36_wellformed",
    "Scrypt.Props.C36_stdin",
    "Scrypt.Props.C36_zeroed",
    "Scrypt.Props.C36_long_line"
   ],
   "note": ""
  },
  {
   "property": "C37",
   "status": "proved",
   "theorems": [
    "Scrypt.Props.C37_file",
    "Scrypt.Props.C37_content",
    "Scrypt.Props.C37_read_error_accepted"
   ],
   "note": ""
  },
  {
   "property": "C38",
   "status": "proved",
   "theorems": [
    "Scrypt.Props.C38_stdin",
    "Scrypt.Props.C38_data",
    "Scrypt.Props.C38_parse",
    "Scrypt.Props.C38_obtain"
   ],
   "note": ""
  },
  {
   "property": "C39",
   "status": "proved",
   "theorems": [
    "Scrypt.Props.C39_history",
    "Scrypt.Props.C39_success",
    "Scrypt.Props.C39_assertions"
   ],
   "note": ""
  },
  {
   "property": "C40",
   "status": "proved",
   "theorems": [
    "Scrypt.Props.C40_complete",
    "Scrypt.Props.C40_released",
    "Scrypt.Props.C40_defined"
   ],
   "note": ""
  },
  {
   "property": "C41",
   "status": "proved",
   "theorems": [
    "Scrypt.Props.C41_buf",
    "Scrypt.Props.C41_enc_file",
    "Scrypt.Props.C41_dec_file",
    "Scrypt.Props.C41_F2_witness",
    "Scrypt.Props.C41_main"
   ],
   "note": ""
  },
  {
   "property": "C42",
   "status": "proved",
   "theorems": [
    "Scrypt.Props.C42_transforms"
   ],
   "note": "Relative to the instruction semantics in Spec/Intrinsics.lean."
  },
  {
   "property": "C43",
   "status": "proved",
   "theorems": [
    "Scrypt.Props.C43_aes_selected_passed",
    "Scrypt.Props.C43_aes_never_aborts",
    "Scrypt.Props.C43_aes_selected_once",
    "Scrypt.Props.C43_aes_bad_openssl_aborts",
    "Scrypt.Props.C43_selected_passed",
    "Scrypt.Props.C43_never_aborts",
    "Scrypt.Props.C43_F14_abort",
    "Scrypt.Props.C43_selected_once",
    "Scrypt.Props.C43_history",
    "Scrypt.Props.C43_sha256_selected_passed",
    "Scrypt.Props.C43_sha256_init",
    "Scrypt.Props.C43_once",
    "Scrypt.Props.C43_selected"
   ],
   "note": "Arbitrary routines for 'selected passed'; the actual code for 'never aborts' (self-test vector evaluated by the kernel). F14: allocation failure during the self-test."
  },
  {
   "property": "C44",
   "status": "proved",
   "theorems": [
    "Scrypt.Props.C44_info",
    "Scrypt.Props.C44_F5_shift"
   ],
   "note": ""
  },
  {
   "property": "C45",
   "status": "proved",
   "theorems": [
    "Scrypt.Props.C45_reading",
    "Scrypt.Props.C45_resolution",
    "Scrypt.Props.C45_interval",
    "Scrypt.Props.C45_accurate",
    "Scrypt.Props.C45_process",
    "Scrypt.Props.C45_process_clock",
    "Scrypt.Props.C45_rate",
    "Scrypt.Props.C45_estimate",
    "Scrypt.Props.C45_positive",
    "Scrypt.Props.C45_codes",
    "Scrypt.Props.C45_clock_failure"
   ],
   "note": ""
  },
  {
   "property": "C46",
   "status": "proved",
   "theorems": [
    "Scrypt.Props.C46_deterministic",
    "Scrypt.Props.C46_salt",
    "Scrypt.Props.C46_salt_file"
   ],
   "note": ""
  },
  {
   "property": "C47",
   "status": "proved",
   "theorems": [
    "Scrypt.Props.C47_restored",
    "Scrypt.Props.C47_waiting"
   ],
   "note": ""
  },
  {
   "property": "C48",
   "status": "proved",
   "theorems": [
    "Scrypt.Props.C48_reason",
    "Scrypt.Props.C48_distinct",
    "Scrypt.Props.C48_message",
    "Scrypt.Props.C48_injective",
    "Scrypt.Props.C48_not_default"
   ],
   "note": ""
  },
  {
   "property": "C49",
   "status": "proved",
   "theorems": [
    "Scrypt.Props.C49_aligned"
   ],
   "note": ""
  },
  {
   "property": "C50",
   "status": "proved",
   "theorems": [
    "Scrypt.Props.C50_progname",
    "Scrypt.Props.C50_unique",
    "Scrypt.Props.C50_lines"
   ],
   "note": ""
  },
  {
   "property": "C51",
   "status": "proved",
   "theorems": [
    "Scrypt.Props.C51_dec",
    "Scrypt.Props.C51_enc",
    "Scrypt.Props.C51_copy"
   ],
   "note": ""
  },
  {
   "property": "C52",
   "status": "proved",
   "theorems": [
    "Scrypt.Props.C52_no_crash",
    "Scrypt.Props.C52_F3_nan",
    "Scrypt.Props.C52_F5_info"
   ],
   "note": ""
  },
  {
   "property": "C53",
   "status": "proved",
   "theorems": [
    "Scrypt.Props.C53_roundtrip",
    "Scrypt.Props.C53_forced",
    "Scrypt.Props.C53_independent",
    "Scrypt.Props.C53_returns"
   ],
   "note": ""
  },
  {
   "property": "C54",
   "status": "proved",
   "theorems": [
    "Scrypt.Props.C54_salts"
   ],
   "note": ""
  },
  {
   "property": "C55",
   "status": "proved",
   "theorems": [
    "Scrypt.Props.C55_erase",
    "Scrypt.Props.C55_cost",
    "Scrypt.Props.C55_exists",
    "Scrypt.Props.C55_speed_unit"
   ],
   "note": ""
  },
  {
   "property": "C56",
   "status": "proved",
   "theorems": [
    "Scrypt.Props.C56_aes_selects",
    "Scrypt.Props.C56_sha256_selects",
    "Scrypt.Props.C56_history",
    "Scrypt.Props.C56_queries",
    "Scrypt.Props.C56_sha256",
    "Scrypt.Props.C56_aes",
    "Scrypt.Props.C56_smix"
   ],
   "note": ""
  },
  {
   "property": "C57",
   "status": "proved",
   "theorems": [
    "Scrypt.Props.C57_memzero",
    "Scrypt.Props.C57_sha256",
    "Scrypt.Props.C57_sha256_buf",
    "Scrypt.Props.C57_hmac",
    "Scrypt.Props.C57_hmac_buf",
    "Scrypt.Props.C57_pbkdf2",
    "Scrypt.Props.C57_drbg_update",
    "Scrypt.Props.C57_instantiate",
    "Scrypt.Props.C57_reseed"
   ],
   "note": ""
  },
  {
   "property": "C58",
   "status": "proved",
   "theorems": [
    "Scrypt.Props.C58_asprintf",
    "Scrypt.Props.C58_failure",
    "Scrypt.Props.C58_bounds",
    "Scrypt.Props.C58_humansize"
   ],
   "note": ""
  },
  {
   "property": "C59",
   "status": "proved",
   "theorems": [
    "Scrypt.Props.C59_no_crash",
    "Scrypt.Props.C59_roundtrip",
    "Scrypt.Props.C59_salt",
    "Scrypt.Props.C59_forced",
    "Scrypt.Props.C59_authentic"
   ],
   "note": ""
  },
  {
   "property": "C60",
   "status": "proved",
   "theorems": [
    "Scrypt.Props.C60_buf",
    "Scrypt.Props.C60_file"
   ],
   "note": ""
  },
  {
   "property": "C61",
   "status": "proved",
   "theorems": [
    "Scrypt.Props.C61_limits",
    "Scrypt.Props.C61_dec_buf",
    "Scrypt.Props.C61_dec_file",
    "Scrypt.Props.C61_no_refusal",
    "Scrypt.Props.C61_auto",
    "Scrypt.Props.C61_auto_file",
    "Scrypt.Props.C61_corner",
    "Scrypt.Props.C61_corner_buf"
   ],
   "note": ""
  },
  {
   "property": "C62",
   "status": "proved",
   "theorems": [
    "Scrypt.Props.C62_enc_trace",
    "Scrypt.Props.C62_dec_trace",
    "Scrypt.Props.C62_enc",
    "Scrypt.Props.C62_enc_killed",
    "Scrypt.Props.C62_dec",
    "Scrypt.Props.C62_dec_cut"
   ],
   "note": ""
  },
  {
   "property": "C63",
   "status": "proved",
   "theorems": [
    "Scrypt.Props.C63_asked",
    "Scrypt.Props.C63_dec_buf",
    "Scrypt.Props.C63_dec_file",
    "Scrypt.Props.C63_auto",
    "Scrypt.Props.C63_F23_dec",
    "Scrypt.Props.C63_F23_enc"
   ],
   "note": ""
  },
  {
   "property": "C64",
   "status": "proved",
   "theorems": [
    "Scrypt.Props.C64_twin_iff",
    "Scrypt.Props.C64_kdf",
    "Scrypt.Props.C64_dec_buf",
    "Scrypt.Props.C64_dec_file",
    "Scrypt.Props.C64_enc_buf",
    "Scrypt.Props.C64_enc_file",
    "Scrypt.Props.C64_distinct",
    "Scrypt.Props.C64_F24",
    "Scrypt.Props.C64_recover"
   ],
   "note": ""
  },
  {
   "property": "C65",
   "status": "proved",
   "theorems": [
    "Scrypt.Props.C65_prefix"
   ],
   "note": ""
  },
  {
   "property": "C66",
   "status": "proved",
   "theorems": [
    "Scrypt.Props.C66_buf",
    "Scrypt.Props.C66_file",
    "Scrypt.Props.C66_same_salt",
    "Scrypt.Props.C66_same_salt_file"
   ],
   "note": ""
  },
  {
   "property": "C67",
   "status": "proved",
   "theorems": [
    "Scrypt.Props.C67_dec_buf",
    "Scrypt.Props.C67_dec_file",
    "Scrypt.Props.C67_enc_buf",
    "Scrypt.Props.C67_enc_file",
    "Scrypt.Props.C67_enc_buf_auto",
    "Scrypt.Props.C67_enc_file_auto",
    "Scrypt.Props.C67_F25"
   ],
   "note": ""
  },
  {
   "property": "C68",
   "status": "proved",
   "theorems": [
    "Scrypt.Props.C68_trace",
    "Scrypt.Props.C68_dec",
    "Scrypt.Props.C68_enc",
    "Scrypt.Props.C68_complete",
    "Scrypt.Props.C68_F26"
   ],
   "note": ""
  },
  {
   "property": "C69",
   "status": "proved",
   "theorems": [
    "Scrypt.Props.C69_told",
    "Scrypt.Props.C69_reason",
    "Scrypt.Props.C69_no_operation"
   ],
   "note": ""
  },
  {
   "property": "C70",
   "status": "proved",
   "theorems": [
    "Scrypt.Props.C70_feature",
    "Scrypt.Props.C70_feature_finishes",
    "Scrypt.Props.C70_F27_missed",
    "Scrypt.Props.C70_sha_selection",
    "Scrypt.Props.C70_sha_selection_finishes",
    "Scrypt.Props.C70_kdf",
    "Scrypt.Props.C70_kdf_finishes",
    "Scrypt.Props.C70_kdf_rfc7914",
    "Scrypt.Props.C70_kdf_returns",
    "Scrypt.Props.C70_alone_feature",
    "Scrypt.Props.C70_alone_sha",
    "Scrypt.Props.C70_alone_kdf"
   ],
   "note": ""
  },
  {
   "property": "C71",
   "status": "proved",
   "theorems": [
    "Scrypt.Props.C71_after_first_use",
    "Scrypt.Props.C71_without_instructions",
    "Scrypt.Props.C71_finishes",
    "Scrypt.Props.C71_F27_mixed",
    "Scrypt.Props.C71_F28_same_bytes",
    "Scrypt.Props.C71_alone_selection",
    "Scrypt.Props.C71_alone",
    "Scrypt.Props.C71_alone_random"
   ],
   "note": ""
  },
  {
   "property": "C72",
   "status": "proved",
   "theorems": [
    "Scrypt.Props.C72_calls",
    "Scrypt.Props.C72_calls_return",
    "Scrypt.Props.C72_message",
    "Scrypt.Props.C72_errno",
    "Scrypt.Props.C72_silent",
    "Scrypt.Props.C72_memory",
    "Scrypt.Props.C72_threads",
    "Scrypt.Props.C72_no_deadlock",
    "Scrypt.Props.C72_closelog"
   ],
   "note": ""
  },
  {
   "property": "C73",
   "status": "proved",
   "theorems": [
    "Scrypt.Props.C73_talk",
    "Scrypt.Props.C73_waiting",
    "Scrypt.Props.C73_unique",
    "Scrypt.Props.C73_file",
    "Scrypt.Props.C73_method",
    "Scrypt.Props.C73_reason",
    "Scrypt.Props.C73_utility"
   ],
   "note": ""
  },
  {
   "property": "C74",
   "status": "proved",
   "theorems": [
    "Scrypt.Props.C74_dec",
    "Scrypt.Props.C74_enc",
    "Scrypt.Props.C74_no_input",
    "Scrypt.Props.C74_no_passphrase",
    "Scrypt.Props.C74_info",
    "Scrypt.Props.C74_silent"
   ],
   "note": ""
  },
  {
   "property": "C75",
   "status": "proved",
   "theorems": [
    "Scrypt.Props.C75_sha_faulty",
    "Scrypt.Props.C75_sha_faulty_unique",
    "Scrypt.Props.C75_sha_once",
    "Scrypt.Props.C75_aes_no_memory",
    "Scrypt.Props.C75_aes_wrong_openssl",
    "Scrypt.Props.C75_smix_faulty",
    "Scrypt.Props.C75_entropy",
    "Scrypt.Props.C75_generator",
    "Scrypt.Props.C75_clock",
    "Scrypt.Props.C75_resolution",
    "Scrypt.Props.C75_cputime",
    "Scrypt.Props.C75_cpuperf",
    "Scrypt.Props.C75_sha",
    "Scrypt.Props.C75_aes",
    "Scrypt.Props.C75_smix",
    "Scrypt.Props.C75_humansize",
    "Scrypt.Props.C75_aes_memory_reported",
    "Scrypt.Props.C75_smix_memory_reported"
   ],
   "note": ""
  },
  {
   "property": "C76",
   "status": "proved",
   "theorems": [
    "Scrypt.Props.C76_erase",
    "Scrypt.Props.C76_left",
    "Scrypt.Props.C76_opens",
    "Scrypt.Props.C76_enc_buf"
   ],
   "note": ""
  },
  {
   "property": "C77",
   "status": "proved",
   "theorems": [
    "Scrypt.Props.C77_enc_buf",
    "Scrypt.Props.C77_dec_buf",
    "Scrypt.Props.C77_enc_file",
    "Scrypt.Props.C77_dec_file",
    "Scrypt.Props.C77_dec_prep",
    "Scrypt.Props.C77_command",
    "Scrypt.Props.C77_otherwise"
   ],
   "note": ""
  },
  {
   "property": "C78",
   "status": "proved",
   "theorems": [
    "Scrypt.Props.C78_erase_smix",
    "Scrypt.Props.C78_erase",
    "Scrypt.Props.C78_smix",
    "Scrypt.Props.C78_kdf",
    "Scrypt.Props.C78_V",
    "Scrypt.Props.C78_exactly",
    "Scrypt.Props.C78_exists",
    "Scrypt.Props.C78_B",
    "Scrypt.Props.C78_B_bytes"
   ],
   "note": ""
  },
  {
   "property": "C79",
   "status": "proved",
   "theorems": [
    "Scrypt.Props.C79_erase_pbkdf2",
    "Scrypt.Props.C79_erase",
    "Scrypt.Props.C79_pbkdf2",
    "Scrypt.Props.C79_kdf",
    "Scrypt.Props.C79_inputs",
    "Scrypt.Props.C79_exactly",
    "Scrypt.Props.C79_exists"
   ],
   "note": ""
  },
  {
   "property": "C80",
   "status": "proved",
   "theorems": [
    "Scrypt.Props.C80_stream",
    "Scrypt.Props.C80_buf",
    "Scrypt.Props.C80_files",
    "Scrypt.Props.C80_enc",
    "Scrypt.Props.C80_enc_over_input",
    "Scrypt.Props.C80_enc_loses",
    "Scrypt.Props.C80_dec",
    "Scrypt.Props.C80_dec_overlap",
    "Scrypt.Props.C80_dec_in_place",
    "Scrypt.Props.C80_boundary"
   ],
   "note": ""
  },
  {
   "property": "C81",
   "status": "proved",
   "theorems": [
    "Scrypt.Props.C81_stream",
    "Scrypt.Props.C81_header",
    "Scrypt.Props.C81_check",
    "Scrypt.Props.C81_enc",
    "Scrypt.Props.C81_dec",
    "Scrypt.Props.C81_enc_file",
    "Scrypt.Props.C81_dec_file"
   ],
   "note": ""
  },
  {
   "property": "C82",
   "status": "proved",
   "theorems": [
    "Scrypt.Props.C82_sha256",
    "Scrypt.Props.C82_hmac",
    "Scrypt.Props.C82_pbkdf2",
    "Scrypt.Props.C82_scrypt_same",
    "Scrypt.Props.C82_scrypt",
    "Scrypt.Props.C82_drbg_update",
    "Scrypt.Props.C82_drbg_generate"
   ],
   "note": ""
  },
  {
   "property": "C83",
   "status": "proved",
   "theorems": [
    "Scrypt.Props.C83_calls",
    "Scrypt.Props.C83_parses",
    "Scrypt.Props.C83_two"
   ],
   "note": ""
  },
  {
   "property": "C84",
   "status": "proved",
   "theorems": [
    "Scrypt.Props.C84_recovers",
    "Scrypt.Props.C84_defaults"
   ],
   "note": ""
  },
  {
   "property": "C85",
   "status": "proved",
   "theorems": [
    "Scrypt.Props.C85_fork",
    "Scrypt.Props.C85_twopad",
    "Scrypt.Props.C85_quiet",
    "Scrypt.Props.C85_apart"
   ],
   "note": ""
  },
  {
   "property": "C86",
   "status": "proved",
   "theorems": [
    "Scrypt.Props.C86_kdf",
    "Scrypt.Props.C86_header",
    "Scrypt.Props.C86_check",
    "Scrypt.Props.C86_enc",
    "Scrypt.Props.C86_dec",
    "Scrypt.Props.C86_enc_file",
    "Scrypt.Props.C86_dec_file"
   ],
   "note": ""
  },
  {
   "property": "C87",
   "status": "proved",
   "theorems": [
    "Scrypt.Props.C87_kdf",
    "Scrypt.Props.C87_buf",
    "Scrypt.Props.C87_file",
    "Scrypt.Props.C87_text"
   ],
   "note": ""
  },
  {
   "property": "C88",
   "status": "proved",
   "theorems": [
    "Scrypt.Props.C88_enc",
    "Scrypt.Props.C88_dec_refused",
    "Scrypt.Props.C88_dec",
    "Scrypt.Props.C88_dec_whole",
    "Scrypt.Props.C88_dec_lost"
   ],
   "note": ""
  },
  {
   "property": "C89",
   "status": "proved",
   "theorems": [
    "Scrypt.Props.C89_info",
    "Scrypt.Props.C89_prep",
    "Scrypt.Props.C89_dec",
    "Scrypt.Props.C89_enc"
   ],
   "note": ""
  },
  {
   "property": "C90",
   "status": "proved",
   "theorems": [
    "Scrypt.Props.C90_defined",
    "Scrypt.Props.C90_fresh",
    "Scrypt.Props.C90_spent",
    "Scrypt.Props.C90_once",
    "Scrypt.Props.C90_whole"
   ],
   "note": ""
  },
  {
   "property": "C91",
   "status": "proved",
   "theorems": [
    "Scrypt.Props.C91_refused",
    "Scrypt.Props.C91_taken",
    "Scrypt.Props.C91_no_memory"
   ],
   "note": ""
  },
  {
   "property": "C92",
   "status": "proved",
   "theorems": [
    "Scrypt.Props.C92_files",
    "Scrypt.Props.C92_info",
    "Scrypt.Props.C92_done"
   ],
   "note": ""
  },
  {
   "property": "C93",
   "status": "proved",
   "theorems": [
    "Scrypt.Props.C93_double_prefix",
    "Scrypt.Props.C93_signed",
    "Scrypt.Props.C93_unsigned",
    "Scrypt.Props.C93_no_bounds",
    "Scrypt.Props.C93_no_bounds_double",
    "Scrypt.Props.C93_misuse",
    "Scrypt.Props.C93_double",
    "Scrypt.Props.C93_option_form"
   ],
   "note": ""
  },
  {
   "property": "C94",
   "status": "proved",
   "theorems": [
    "Scrypt.Props.C94_requests",
    "Scrypt.Props.C94_run",
    "Scrypt.Props.C94_last"
   ],
   "note": ""
  },
  {
   "property": "C95",
   "status": "proved",
   "theorems": [
    "Scrypt.Props.C95_back",
    "Scrypt.Props.C95_which",
    "Scrypt.Props.C95_required_file",
    "Scrypt.Props.C95_required_buf"
   ],
   "note": ""
  },
  {
   "property": "C96",
   "status": "proved",
   "theorems": [
    "Scrypt.Props.C96_unique",
    "Scrypt.Props.C96_buf",
    "Scrypt.Props.C96_file",
    "Scrypt.Props.C96_F35"
   ],
   "note": ""
  },
  {
   "property": "C97",
   "status": "proved",
   "theorems": [
    "Scrypt.Props.C97_buf_data",
    "Scrypt.Props.C97_buf",
    "Scrypt.Props.C97_prep",
    "Scrypt.Props.C97_file",
    "Scrypt.Props.C97_program",
    "Scrypt.Props.C97_refused_buf",
    "Scrypt.Props.C97_refused_file"
   ],
   "note": ""
  },
  {
   "property": "C98",
   "status": "proved",
   "theorems": [
    "Scrypt.Props.C98_buf",
    "Scrypt.Props.C98_file",
    "Scrypt.Props.C98_repeated_salt",
    "Scrypt.Props.C98_program"
   ],
   "note": ""
  },
  {
   "property": "C99",
   "status": "proved",
   "theorems": [
    "Scrypt.Props.C99_file",
    "Scrypt.Props.C99_buf",
    "Scrypt.Props.C99_undamaged",
    "Scrypt.Props.C99_cut"
   ],
   "note": ""
  }
 ]
}