# Formal model of rauc/rauc in Lean 4

The properties are in `properties.jsonl`, the theorems for each of them in `MANIFEST.json`, wrong programs that were tried against the
theorems in `seeded/LOG.jsonl`. The Lean project is `lean/`.

## 1. Trusted base

* **Lean 4.33.0's kernel.** Every theorem depends on at most the three standard axioms `propext`, `Classical.choice`, `Quot.sound`
  (section 6 says how this is checked). There are no axioms of our own, no placeholders, and no tactic that rests on compiled code. Computations inside
  proofs use `decide` or `decide +kernel`, which are evaluated by the kernel.
* **The reading of the C source.** The code was not run. Every definition in `lean/Verif/Model/*.lean` cites the file and lines of `/repo` it models and
  says what it simplifies.
* **The statements.** The theorems are in `lean/Verif/Props/*.lean`. Small specifications which the statements use and which do not refer to the model's
  helpers: `Props/BootSpec.lean` (boot states and histories), `IsRoot` (Merkle trees, `Props/Verity.lean`), `Precedes` (semver precedence,
  `Props/Semver.lean`), the POSIX word parser (`Props/Shell.lean`), and the definitions at the beginning of the other files.
* **The surroundings**, which are parameters or explicit hypotheses, never axioms:
  - boot loader tools (`fw_printenv`, `fw_setenv`, `grub-editenv`, `barebox-state`, `efibootmgr`): a store of variables; every call may fail; one
    call is atomic (a `grub-editenv set`/`barebox-state -s` call with several assignments as a whole);
  - OpenSSL (CMS parsing, decryption, verification, certificate chains; AES) and SHA-256: arbitrary functions. Where a statement needs that the hash
    has no collisions it says "or these two different inputs have the same hash", and names two inputs that have occurred (on the
    disk, in the image, in a hash tree): that any such inputs exist is trivial, as there are more inputs than hashes;
  - the kernel: short and interrupted transfers in any order, failing calls, `fsync` as a barrier, atomic `rename`, leases as documented in fcntl(2),
    dm-verity and dm-crypt as documented;
  - GLib: containers as lists, with an arbitrary iteration order for hash tables; `GKeyFile` as an ordered list of groups (its escaping is
    modelled for manifests, C50; its line splitting is not); `g_strsplit`, `g_ascii_strtoull`, `g_shell_quote`, `g_pattern_match_simple` are modelled;
  - libfdisk (what it reports, `Gpt.Ok`; what it writes is a parameter), libcurl (a transfer for which a callback refused data does not end with `CURLE_OK`).

## 2. Conventions

* `Str := List Char`, `Bytes := List UInt8`, a device is a function from offsets to bytes.
* Machine integers are natural numbers or integers where the code cannot wrap or rejects; where it can wrap, `% 2^32`, `% 2^64` are explicit.
* Aborts (`g_assert`, `g_error`, division by zero) are outcomes of their own.
* Outcomes which the code does not decide come from oracles: functions of the history so far, or schedules. Quantifying over them covers all outcomes in all orders.
  A crash is a prefix of the externally visible steps (or, for block devices without order, any subset of the writes after the last barrier).
* `Lib` string, key file and disk libraries; `Model` the code; `Lemmas` auxiliary proofs; `Props` the property theorems with, beside each, an example
  which meets its hypotheses.
* Names: `Cxx_...` proves property Cxx; `..._partial` proves a part (the missing part is in the doc comment and in the manifest);
  `Cxx_..._violated` and `Cxx_finding_...` prove that the code does not have the property, by a concrete execution of the model.
  A property with such a counterexample is listed as `partial`, with the strongest true statement beside it.

## 3. What is modelled

| module | code | properties |
|---|---|---|
| `Model/Slot` | include/slot.h | all |
| `Model/Boot` | src/bootchooser.c, src/bootloaders/{barebox,uboot,grub,efi}.c: get/set state, get/set primary | C01–C05, C55 |
| `Model/BootText` | the command lines of src/bootloaders/{uboot,grub,barebox,efi}.c and the evaluation of the tools' output; the tools (fw_printenv, fw_setenv, grub-editenv, barebox-state, efibootmgr) as trusted specification | C64 |
| `Model/BootName` | src/context.c:79-185, src/bootchooser.c:47-73 and the backends' `get_current_bootname` | C56 |
| `Model/BootCustom` | src/bootloaders/custom.c, the dispatch in src/bootchooser.c:76-234 | C57 |
| `Model/Mark` | src/mark.c | C06–C08 |
| `Model/Select` | src/install.c:148-566, src/slot.c (roots, classes) | C09–C12 |
| `Model/Install` | src/install.c:603-661, 995-1265, 1444-1676, the mount steps of src/bundle.c | C13–C18 |
| `Model/Status`, `Lib/KeyFile` | src/status_file.c | C19, C20 |
| `Model/Semver` | src/utils.c:940-1125, `check_version_limits` | C21, C22 |
| `Model/Config` | src/config_file.c: bundle formats, slots, parents, boot names; sizes in src/utils.c | C23–C25 |
| `Model/ConfigFile` | src/config_file.c:136-1540 (all sections, `parse_config`, `load_config`, `check_config_target`), the key file readers of src/utils.c:385-522 (not: loading of the text, warnings, `r_config_file_modified_check`) | C59 |
| `Model/Utils` | src/utils.c: hex, environment keys, exact I/O, symlinks; src/shell.c | C26–C28, C51, C52 |
| `Model/HashIndex` | src/hash_index.c, the adaptive copy in src/update_handler.c:729-947 | C29, C30 |
| `Model/Verity` | src/verity_hash.c | C31 |
| `Model/Bundle` | src/bundle.c: trailer, `check_bundle`, `check_bundle_payload`, `mount_bundle`, resigning; src/signature.c: the decisions around CMS verification | C17, C32, C33, C53 |
| `Model/Access` | src/bundle.c:1752-2049 | C34 |
| `Model/Manifest`, `Model/ManifestFile` | src/manifest.c: parser, checks, serialization | C35, C50 |
| `Model/Artifacts` | src/artifacts.c (composefs: see below), src/install.c:1337-1442 | C36, C37 |
| `Model/Composefs` | src/artifacts_composefs.c, and src/artifacts.c, src/install.c for repositories of type composefs. Not modelled: libcomposefs (reading an image is a parameter), the subdirectories of the store (their removal is one outcome) | C65 |
| `Model/DataDir` | src/slot.c:204-341 and its users: src/status_file.c:264-275, :405-417, src/install.c:1096-1230, src/hash_index.c:330-434, src/update_handler.c:753, :774, :924. Not modelled: entries below a `hash-` directory other than the index, the page cache | C66 |
| `Model/Devices` | src/dm.c, src/mount.c:18-60, :105-238, src/bundle.c:2912-3220, with a model of the kernel: unique device mapper names, use counts, deferred removal, auto-clear. Not modelled: netlink (setting up the NBD device is one outcome), the block size of the loop device | C67 |
| `Model/System` | joins `Model/Install` and `Model/Boot`: install.c:1464-1480, :1511-1521 through mark.c:109-164 to the boot loader's data; failed and interrupted requests carry out any prefix of their transactions. Not modelled: what handlers and hooks do to the boot loader | C68 |
| `Model/StatusView` | service.c:318-470 (GetSlotStatus), main.c:1618-1780, :1935-2120 (client side of `rauc status`, shell output), slot.c mountpoints, main.c:902-1010 (`rauc info` shell output), manifest.c:1136-1267 (InspectBundle). Not modelled: the readable and JSON outputs, the D-Bus transport | C69, C70 |
| `Model/Client` | main.c:88-397 (`rauc install` with the service: subscription, call, main loop, exit status) composed with `Model/Daemon`. Signals arrive in order; one iteration may run several callbacks. Not modelled: the argument dictionary (see `Model/Stream`), the printed progress | C71 |
| `Model/Stream` | main.c:170-212, :283-319, service.c:64-132, :168-205, bundle.c:2323-2350, :3258-3343, nbd.c:381-505, :557-680, :748-856, :1064-1190, polling.c:100-148: options from the command line over D-Bus to the HTTP requests, information headers, header callback, configuration reply, memory of the poller. Not modelled: libcurl, retries of the first request, pkcs11 key type, proxy and timeouts | C72, C73 |
| `Model/Sandbox` | nbd.c:1194-1388: choice of the user, child setup, credentials after exec. The kernel's setgroups, setgid, setuid and execve are part of the model (credentials(7), no capabilities) | C74 |
| `Model/Download` | network.c:41-178: callbacks of libcurl, limit, target file. Not modelled: URL handling, redirections, encodings | C75 |
| `Model/CasyncCmd` | bundle.c:206-395: argument vectors and the command line for sh. Not modelled: the tools | C76 |
| `Model/Daemon` | src/service.c, src/polling.c, start and end of installations in src/install.c and src/context.c | C38, C39, C45, C54 |
| `Model/EventLog` | src/event_log.c: rotation and writing | C40 |
| `Model/Copy` | src/update_utils.c, `copy_raw_image`, `clear_boot_switch_partition` etc. of src/update_handler.c | C49, C41–C43 |
| `Model/BootSwitch` | src/mbr.c, src/gpt.c, the boot-switch and raw-fallback handlers of src/update_handler.c | C41, C42 |
| `Model/Emmc` | src/emmc.c and its handler | C43 |
| `Model/Handlers`, `Model/Image` | the tables and lookups of src/update_handler.c:2638-2802 | C48, C12 |
| `Model/Update` | the eleven plain update handlers as programs over external steps, casync seeds, hook mounting, vfat labels, tar options: src/update_handler.c:577-720, 986-1153, 1287-1373, 1502-2060, 2597-2636 (not: the argument vectors of the tools, the hook environment) | C58 |
| `Model/HandlerEnv` | environments of handlers and hooks, handler messages: src/install.c:568-601, 662-956, src/update_handler.c:1388-1487, src/context.c:200-339 (system-info) | C60 |
| `Model/Create` | creating and extracting bundles: src/bundle.c:402-662, 732-813, 898-1417, 2763-2804, src/manifest.c:930-948, 1355-1420; directory trees with links; mksquashfs, tar, mkcomposefs, SHA-256, cipher, CMS, GLib text are arbitrary functions with laws (`Sound`, `Trusts`) | C61 |
| `Model/Resign` | tools for existing bundles: src/bundle.c:1419-1523, 1693-1740, 2625-2761, 2806-2875; the input file under its name may differ from the one that was checked, each step may fail, the output may appear in between | C62 |
| `Model/Casync` | conversion to casync: src/bundle.c:219-400 (casync itself is a parameter), 1525-1691 | C63 |
| `Model/Nbd` | src/nbd.c: server loop, `r_nbd_read` | C44 |
| `Model/Progress` | src/context.c:589-845 | C46 |
| `Model/Crypt` | src/crypt.c, the crypt target of src/dm.c | C47 |
| `Model/Context` | context.c:443-562, main.c:2778-3075 (command line to configuration), signature.c:48-99, :495-548, :624-642. Not modelled: option parsing of GLib, setup of the target, OpenSSL | C77 |
| `Model/ServiceStart` | start of the service: create_run_links, boot detection and boot events (main.c:2338-2508) | C78 |
| `Model/Cli` | main.c:401-916, 1321-1423, 2511-2774, 2804-3080: table of commands, option groups, every bundle tool, info, mount, write-slot | C80 |
| `Model/JsonView` | JSON output of info (json, json-pretty, json-2) and status (main.c:1168-1318, :1805-1948); order of slots in the readable output (main.c:1594-1654, slot.c:343-431); Model/Json has the generator of json-glib (escapes, compact and pretty layout; valid UTF-8 only) | C83 |
| `Model/EventRoute` | events and their fields, log writer, filter by type, formats of records (event_log.c:20-222, :303-406; install.c:1189, :1273-1326, :1415; mark.c:93-130; main.c:2337-2385) | C82 |
| `Model/InstallThread` | install.c:42-63, :1685-1776, service.c:28-61, :539-560, polling.c:266-297, main.c:90-111, :350-397 (installation thread, message queue, callbacks, main loop, LastError and its announcement). GLib's ownership of the main context, its order of sources, and gdbus-codegen's announcement of changed properties are modelled from their documentation and source. Each callback is one atomic step. Not modelled: the text of the log lines | C84 | C84 |
| `Model/PollStatus` | the poller's properties Status and NextPoll (polling.c:17-147, 354-621) | C85 |
| `Model/ServiceCalls` | methods of the Installer D-Bus interface with arguments, effects and answers (service.c:60-600) | C86 |
| `Model/StreamSession` | one streaming session as a small-step machine: RAUC's statements, the kernel's NBD device (disconnect-on-close, number reuse), the helper process; other processes act between any two statements | C87 |
| `Model/SlotMount` | one slot's mount point, cached status and slot.raucs during the life of one process (statusfile=per-slot): load, save, install plan, activation, with a result 'FALSE without error' | C88 |
| `Model/ArtifactService` | the table of artifacts kept by the service between installations (artifacts.c:244-333, 369-495, 581-621, 655-710, service.c:456-480), pointers with a freed state; one repository, no parents | C89 |
| `Model/Feed` | `splice_with_progress` and the two programs fed through a pipe (update_handler.c:236-324, 1235-1277, 1319-1364); GSubprocess as described in the comment of `feed` | C90 |
| `Model/ArtifactData` | `r_artifact_install` for files, trees and composefs repositories (artifacts.c:712-960) as a trace of operations | C91 |
| `Model/ExtMounts` | install.c:65-130 (mount table, loop devices), :240-276 (boot states), slot.c:61-77, service.c:374-421 (GetSlotStatus); the check install.c:995-1015 is in Model/Install. Not modelled: `g_unix_mounts_get` itself (the list is arbitrary), non-ASCII digits | C92 |
| `Model/RmTree` | Walking, removing and checking directory trees (utils.c rm_tree, r_tree_check_open; glibc nftw as a recursive walk, unlink/rmdir on a set of paths, leases as an isOpen flag per file; no concurrent changes) | C93 |
| `Model/Argv` | Argument lists of the programs RAUC runs (update_handler.c mkfs/flash/tar/casync, mount.c, bundle.c mksquashfs/unsquashfs, install.c custom handler, polling.c reboot) and GLib's g_shell_parse_argv. Not modelled: abbreviated long options; the option tables are from the manual pages (a part of them for some programs) | C94 |
| `Model/ServiceLife` | `r_service_run` and its callbacks, end of `service_start` and `main` | C95 |
| `Model/InfoText` | `info_formatter_readable`, end of `info_start`, `format_cert_chain` | C96 |
| `Model/StatusText` | Model/StatusText: r_status_formatter_readable, r_string_append_slot, r_string_append_repo (main.c:1454-1655) as lists of lines; spec in Props/StatusText: a reader of screens (colours removed, lines grouped by indentation, headings put in front of the labels below them) | C97 |
| `Model/EndToEnd` | Model/EndToEnd: what each step of an update handler and each event of an installation does to the content of the slots; joins Model/Create, Install, Update, Copy, HashIndex | C98 |
| `Model/Display` | Model/Display: stats.c, r_format_duration (utils.c:1124-1145), make_progress_line (main.c:62-88) | C99 |
| `Model/Trust` | signing time (`cms_get_signingtime`), and OpenSSL as it is called with the store set up from the configuration: joins Context and Bundle | C102 |
| `Model/Props/LifeLong` | C103: life of a device to which anybody offers bundles; joins the models of Bundle, Trust, Install, System, EndToEnd (no code of its own) | C103 |
| `Model/Keys` | Keys and certificates: load_key, load_cert, load_certs_from_file, get_pkcs11_engine, cms_sign (with the check against the signing keyring and the expiry warnings), cms_append_signature, cms_encrypt, cms_decrypt, get_pubkey_hash(es) (signature.c). PEM files are lists of sections; OpenSSL's operations are arbitrary functions | C104 |
| `Model/Props/Redundant` | C107: redundant devices (composition of C09-C11, C106, C68) | C107 |
| `Model/Props/Result` | what the poller is told about an installation (status_result, updated_slots, updated_artifacts), install.c:1481-1499, 1703-1735; C108 (composition) | C108 |
| `Model/Props/Fallback` | C109: days of a device whose boot loader counts attempts and falls back (contrib/uboot.sh; contrib/grub.conf as a relation) | C109 |
| `Model/Props/FallbackBytes` | C110 (composition of C103 and C109, no code of its own) | C110 |
| `Model/BootScript`, `Props/BootScript` | contrib/uboot.sh, contrib/grub.conf (all lines up to the start of the kernel) | C109, C111, C112, C113, C114, C115 |
| `Props/Always` | C107 after any history of C103 | C107 |

Not modelled: the command line and its output (src/main.c), D-Bus marshalling, the casync, UBI, NAND and archive helpers' external programs, file system creation, composefs,
TLS and HTTP headers, PKCS#11, the texts of messages. The section after next names further restrictions per property.

## 4. How each property is proved

| id | model | proof |
|----|-------|-------|
| C01–C05 | the four backends as functions on an environment; requests as lists of atomic transactions; histories of requests | case analysis of each request, split/join lemmas for the order variables, induction over histories; crash = prefix of the transactions |
| C06–C08 | mark.c as a function to backend requests with outcomes | list reasoning, for all outcomes |
| C09–C11 | slot states, selection, target group for any slot table in any order | induction over the table |
| C12 | `r_install_make_plans` | induction over images and classes |
| C13–C18 | an installation as a list of events, from an oracle | invariants over the event list; C14 over any history of installations, marks and crashes |
| C19, C20 | key file, save/load | round trip, frame lemmas |
| C21, C22 | parser and comparator | lexicographic order; equivalence with an independent definition of precedence |
| C23 | slot sections, parent resolution with the code's limit of 100 | induction; exact characterization of rejection |
| C24–C28, C51, C52 | parsers, loops, states | exact characterizations, induction over schedules |
| C29, C30 | lookup table, binary search, window; copy loop | sortedness, loop invariant "prefix equals image" |
| C31 | tree levels as in the code | equivalence with an inductive Merkle tree; collision extraction |
| C32–C34, C53 | decision functions over arbitrary crypto and kernel answers | decision logic, byte-list arithmetic |
| C35, C50 | parser, checks, serializer | exact characterization, round trip through escaping |
| C36, C37 | repository directories with every intermediate state | invariant over histories with crashes; `Props/ArtifactsMore`: failing copy/sync are reported, references keep their parents |
| C38, C39, C45, C54 | the main loop as a state machine | invariants over histories |
| C40 | log files with every intermediate state | invariant over histories |
| C41–C43, C49 | device writes in order | interval reasoning; every crash state (for C42 also reordered) |
| C44 | server events in any order | invariant over event lists |
| C46 | step stack, parametric in rounding | invariant in exact arithmetic; for every IEEE rounding to single precision an error bound through the whole tree (no assertion fails, 0..100); kernel-computed counterexample to monotonicity in single precision |
| C47 | CBC over an arbitrary invertible block function | algebra |
| C48 | the tables | the tables are finite and decided completely; file names by induction; `Props/ManifestTypes` carries the type decision through the manifest parser |
| C55 | the two queries of each backend | scan lemmas: first good token, maximal priority |
| C56 | command line search, boot name, slot states | a pattern without white space lies within one parameter (induction over the text) |
| C57 | an arbitrary state machine as backend | case analysis |
| C58 | handlers as decision trees, content as a function of the history | every execution is one of the paths of the tree (induction over the tree), the inputs are reduced to the finitely many conditions the code tests (proved), the complete finite set of paths is decided by the kernel; file names by the glob lemmas of C48 |
| C59 | each section as a function from options to values | each reader, section and the whole file is shown equivalent to a declarative specification (`Props/ConfigFile`, `Props/ConfigLoad`, numbers in `Props/ConfigNumbers`); no unknown option by the remaining-keys check |
| C60 | environment as a list of assignments, slot numbering loop | every variable has one writer (names with numbers are injective, by induction on digits), frame for all others |
| C61 | `create`, then `checkBundle` and `extract` on the result | induction over trees and path lookups for the copy; each step as a frame plus an effect on single names; C31 (verity), C47 (cipher), C50 (text) and C33 (reading) composed |
| C62 | `resign`, `encrypt`, `replaceSignature`, `extractSignature` on accepted bundles | case analysis of the tool, then the acceptance lemmas of C61 and C33 for the new file; verity verification and decryption shown to depend on the payload only; composition with C61 (`C62_created_partial`) |
| C63 | `casync` on an accepted bundle, then `checkBundle` and `extract` on the result | induction over the images with the directory and the store as state, names of indexes are injective; serialization does not see derived types (`prepare_retype`), then the acceptance lemmas of C61 |
| C64 | each boot loader a second time as `Backend` over the tools' own variables, with argument vectors as transactions | refinement (`Sim`, `Props/BootSim`): reading what the tool prints gives the abstract variables, running an argument vector does what the abstract transaction does; C01–C05 and C55 transfer |
| C65 | directory (as for C36/C37) and object store; crash points: all states, with arbitrary contents of the objects that are not synced yet | invariants over the session (`Complete`, `Covers`, `Sound`) and projection of each plan onto `Model/Artifacts` (`effPlan`), induction over histories `CReach` |
| C66 | the data directory as a map from names to entries, the status in memory and on disk; an operation is the list of states it passes through | invariant `Inv` over all states of all operations, induction over histories; the accumulation of interrupted installations by induction over their number |
| C67 | state of the kernel objects behind the mount point; a run is the list of states it passes through | case analysis along the calls with lemmas per function (`dmSetup_fail`, `verity_ok`, …); `Stuck` is invariant under everything; tables by `split_join`; loop devices by induction over the tries |
| C68 | events of an installation joined with the boot loader's data; a crash is a prefix of the events, plus a prefix of the transactions of the next request | phases (before / writing / activating) from the shape lemmas of C13; C01, C03, C02 and a new lemma that marking a slot bad keeps another one primary, per backend; soundness of the status (C14) gives the content; induction over the life of the device |
| C69 | service side: slot table and stored status to dictionaries; client side: dictionaries to slot table, table to shell variables; hash order is an arbitrary permutation | round trip of every dictionary key; the script of C51 for the list of variables; names of variables are injective in (base, numbers); membership characterised field by field |
| C70 | manifest to shell variables and to the dictionary of InspectBundle | same field tables; lookups of every key; equal replies iff equal visible information; the key of a crypt bundle does not occur |
| C71 | client state machine composed with the service, ghost variables for the own installation | invariant per phase over all event lists; corollaries for histories without foreign installations; two counterexample histories |
| C72 | dictionaries as lists (last entry counts), taking of options, chain of three dictionaries | lookups after insertion and removal; acceptance iff every entry is a documented option; equality of the final request with the given options; membership of information headers by an inductive specification |
| C73 | header callback over all header lines, reply dictionary, memory of the poller | induction over the headers (last content-range), case analysis of the reply; invariant (remembered ETag determines the manifest) over histories with an honest server |
| C74 | credentials and the kernel calls | case analysis of the setup; invariant over all sequences of credential calls (inductive `Reach`) |
| C75 | callbacks folded over libcurl events | induction over the events: bytes handed on = counter <= limit, prefix of what was delivered |
| C76 | joined command line | a lexer for POSIX shell words as specification; each piece reads as one word; induction over the pieces |
| C77 | files as a map to missing/unreadable/empty/data | inductive specification of the configuration in effect, equivalence by case analysis; bits as masks |
| C78 | Model/ServiceStart on top of updateSymlink and slotStates: list of directory states | induction over the loop: old or new target at every state |
| C79 | Model/ServiceStart bootDetect on the status file model | induction over histories; logged boots = boots without adjacent repetitions (List.destutter) |
| C80 | an invocation is the list of options and of other arguments; a run is the list of calls (with all arguments) and the exit status | inversion of every command into five shapes of runs; options by cases over the build options; the inside check by path components |
| C81 | write-slot in the same model, with the handler table of Model/Handlers | equivalence with an independent relation `WriteOk`, by cases |
| C83 | generator of json-glib over a Json type; documents of the formatters | reader of RFC 8259 texts as specification, uniqueness of reading; members looked up by name |
| C82 | history of log messages over a list of loggers with their files (C40 model) | induction over the history; JSON reader of C83; reader of readable log files as specification |
| C84 | state machine of thread, message queue, sources and main loop, with choices for all interleavings | inductive invariant (messages are conserved; the pending callbacks are notifications followed by one end; an announcement waits before the end); termination with decreasing measures along infinite fair schedules; a fair schedule that never ends for the build without the service |
| C85 | RPollingContext as a state machine on top of Model/Daemon; specification is a list of the polls made so far | invariant over all histories; refinement to Daemon.step |
| C86 | handlers as functions to effects and answers; everything called is an oracle except mark_run (Model/Mark) and the options (Model/Stream) | case analysis, refinement to Daemon.step, induction over histories |
| C87 | machine over event lists: RAUC steps with arbitrary failures, other processes, helper death, kill, external unmount | invariant per program point (At), rank function for termination; findings by evaluation |
| C88 | machine over lists of operations with arbitrary faults; the handlers are Update.updateSlot | invariant (mounts counted = mount_point set, mounted → status cached) by induction; C19 for the file, C58 for the handlers |
| C89 | table in memory after every possible failure point, next to the directory model of C36 | invariant over histories of operations; the table of a successful session equals the one of the C36 model, then its Mem/Linked/Reflected lemmas give the answer; findings by evaluation |
| C90 | loop over arbitrary splice results with what the program has received; arguments as lists | functional induction on the loop; flags against an independent table |
| C91 | trace of the operations for every combination of failures | replay of every prefix of the trace on a small disk specification with durability; induction over the copy loop |
| C92 | mount table as list of (source, mount point); leftmost match of the unanchored expression; update loop; the world of Model/Install with `slotMounted` computed from it | induction over sources and tables; every touching event of an installation implies that all checks of all plans passed |
| C93 | trees as a mutual inductive type, the file system as a set of paths, nftw as a fold with early exit | mutual structural induction over the tree |
| C94 | tokenizer and unquoting as machines over characters; argument vectors as lists; the programs' reading of options as an independent getopt | induction over the grammar of words; append lemma for getopt |
| C95 | main loop iterations as batches of callbacks on top of Model/Daemon, the main thread after the loop and uses of shared data by the installation thread as free choices of a scheduler | invariant of the loop, induction over schedules |
| C96 | the output as text; a reader (lines, labels, parts, sections) as specification | the reader applied to the output gives the fields, for all manifests without line breaks in values; last line for all manifests |
| C97 | the text of the readable status output is modelled character by character, g_format_size_full is a parameter | an independent reader (decolor, cut, qualify, shown) recovers every value; composed with C69 (what the client receives from the service) |
| C98 | content of slots (bytes or a file tree) added to the events of Model/Install and the steps of Model/Update; successful external programs are trusted | each step keeps the meaning of C58's abstract content; induction over the events; composition with C61 and C12 (C98_author), with C14/C68 for crashes and histories (C98_life) |
| C99 | ring buffer over rationals, texts character by character | induction over the added values (Finset sums for the ring); an independent reader of durations; form of the bar |
| C107 | (history part) the lives of C103 | C103_life gives the running system, every life gives a reachable status (Install.Reach), then C107_installed and C107_next |
| C108 | the models of C105 (Daemon) and C107 (Install, Select, Boot), joined by `statusResult` and `installFlags` | C105_rollout with the reboot criterion derived from C54_updated; C107_next for the boot loader |
| C109 | the models of C01 (Boot, four backends), C09/C12 (Select), C13/C68 (Install, System); new: contrib/uboot.sh (`ubootSh`), and what contrib/grub.conf, barebox and EFI may boot and change | invariant over all histories: every boot slot holds a complete system or is marked bad in the boot loader; `Marked` (from the proof of C01) for the backends, `Fair` for the boot loaders, `Update.phases` for interruptions |
| C110 | the models of C103 (Bundle, Trust, Install, EndToEnd) and C109 | each attempt of C103 is one of the installations of C109 or touches nothing (`try_step`); the content of slots as in C103, completeness from C109 |
| C111 | the models of C01 (Boot) and the scripts as functions (`ubootSh`, `grubSh`) | the scan of RAUC and of the script are both the first element of the split order with the same test (`ubootScan_all`, `grubScan_all`, `grubShScan_find`) |
| C112 | as C111 | induction over the attempts left: one start decrements the counter of the booted slot and changes nothing else (`ubootSh_step`); GRUB: after a start the same slots may be booted but for the tried one (`grubShScan_after`); after mark-active with C02 and C111 |
| C113 | as C111 | when the scan fails, every name of the order is tried (`grubShScan_none`) and the reset clears it (`grubReset_try`), or all counters are set again (`resetAll_left`); then the first-scan lemmas of C112 |
| C114 | as C111, with the mark-good of C01 | induction over the history: a start and a confirmation keep which slot is first (`day_uboot`, `ubootSh_same`; GRUB: `grubShScan_after`) |
| C115 | as C112, with mark-bad and mark-active of C01/C02 | the rewritten order keeps which other slot is first (`next_rewritten`, with white space: `find_normTail`), then C112 after mark-active |
| C107 | the installation and selection models of C06-C16, `World.group` being the target group for the running slot | composition: an inactive system exists, so one is selected (C11), its group is complete (C10), hence `Fits` (C106); success and C68 give the next boot |
| C106 | Model/Install (the machine of C13-C18) under the hypothesis that the oracle lets every operation succeed | each step of the chain is shown to succeed iff its condition holds; planning and the checks before it are characterized by Fits in both directions; C106_done composes with C13_success and install_core |
| C105 | Model/Daemon (the machine of C39/C45) with an order on the times of the callbacks (Timed) | the time of the next poll is bounded by induction over the history; then the first due callback is found by induction over the calm continuation, with the invariants Idle, Installing, Rebooting |
| C104 | The loaders as functions of files, tokens and environment; cms_sign etc. as compositions with OpenSSL functions that obey LibOk | characterization of each loader (iff), then composition: with C102's SignatureOk for the check at signing time, with C62_encrypt for devices that receive an encrypted bundle; injectivity of the hash format by splitting the joined string |
| C103 | histories (`Life`) of attempts (`Attempt`): runs of `install` with arbitrary oracles, cut off anywhere, for bundles of arbitrary origin | per slot: content unknown, as in the factory, or released; every successful write is of a release by C101_bundle and C98; Bootable by C68_life; the layout of slots gives whole systems (`whole_system`, by C10 and C12) |
| C102 | OpenSSL's functions take the store and the time explicitly; `crypto`/`bundleConfig` build the parameters of Model/Bundle from the configuration | C33 (what is accepted) and C77 (what the configuration is) composed; soundness of OpenSSL is a hypothesis (`Sound`); example: an expired certificate with signing time |
| C101 | dm-verity as chains of delivered blocks up to the root hash, squashfs as files determined by the blocks that could be read; `Release` is what was signed|induction over the hash tree (both trees descend together), then C33, C12, C98 and C100; `C101_published` connects to what `rauc extract` verifies |
| C100 | no new model: composition of Model/Config, BootName, Select, Install, System, EndToEnd (Props/WholeUpdate) | phases of an interrupted installation (C68) with the selection facts (C09, C12, C56) from an accepted configuration (C23); slots that are no targets keep their bytes, targets hold the author's data (C98); induction over the history |

Restrictions (hypotheses) to know about: C03 one tool call is atomic. C08 counters below 2^32-1. C14 the status file is replaced atomically. C36 repositories without
parent slots (the code installs only into those), digests in lower case. C37 the same digests. C38 maximum interval up to 2147483 s. C40 the position of a file opened for appending is its end.
C41–C43 sector sizes up to 64 KiB, devices up to 2^63 bytes, halves below 4 GiB, hooks do not write to the device, libfdisk reports consistent tables. C42 sector-atomic writes.
C46 monotonicity only in exact arithmetic.

## 5. Findings

Disagreements between the code and the property as a user would state it. Each is a theorem (named in brackets) unless marked "observation".

* EFI: a slot named by BootNext, or with two entries, stays primary after mark-bad (`C01_efi_violated_*`); activation without BootNext is shadowed by an old BootNext (`C02_efi_violated`).
* barebox, U-Boot, GRUB: mark-good after mark-bad does not make the slot good again, because priority/order are not restored (`C04_*_violated`). U-Boot, GRUB: activation lists slots again which had been removed (`C05_*_violated`).
* prevent-late-fallback with a single slot reports an error although the slot was marked good (`C07_single_slot`).
* A booted child slot (found by device or name) leaves its own group selectable (`C09_violated`).
* A bundle with images for child slots only does not mark the group's boot slot (`C13_child_only_violated`); a failing post-install handler comes after the activation (`C13_post_handler_violated`).
* Per-slot status files: an old "ok" may survive an interrupted write (`C14_per_slot_violated`). Images without digest are skipped by comparing NULL with NULL (`C15_no_digest_violated`).
* An emptyfs image without file name aborts the installation (`C18_emptyfs_aborts`). The slot type jffs2 has handlers but is never accepted by the configuration (`C23_jffs2_rejected`).
* The transaction id of a slot status is written, never read (`C19_violated`).
* Versions: hyphens in pre-release identifiers and numbers of 2^64 and more are not compared as semver demands (`C21_semver_violated`).
* Sizes: trailing garbage is ignored, negative numbers and overflows wrap (`C25_*_violated`). Environment keys of different manifest keys may collide (`C27_collision`). A device that accepts zero bytes makes the exact write loop spin (`C28_zero_writes_spin`).
* Hash index: the walk back to the first occurrence is lost at the start of the table (`C29_window_violated`). A truncated index file in the bundle gives a partial image reported as success (`C30_truncated_index_violated`); fewer than nine chunks divide by zero (`C30_small_crash`). Observation: `(c + 1) * 80` overflows for images above 204 GiB.
* Observation: verity_hash.c ignores the result of the final `fclose`.
* Bundles: with an empty payload the signature is checked over the whole file (`C33_plain_payload`); unaligned sizes abort (`C33_finding_unaligned_abort`).
* Manifests: `..` as image file name, and `/` in hook and handler names, are accepted (`C35_finding_names`). min-rauc-version is never written, trailing blanks, empty meta groups are lost (`C50_finding_*`).
* Artifacts: a temporary link left by a crash blocks all later updates of that artifact (`C36_finding_stale_link_blocks`, `C52_stale_temporary`); upper-case digests are pruned although referenced (`C37_finding_uppercase`).
* Poller: intervals above 24.8 days overflow (`C38_finding_overflow`); two bundles offered alternately are installed again and again (`C39_finding_alternating`); a bundle without version aborts the service (`C39_finding_no_version`).
* Service: a refused request sets the operation to "idle" while an installation runs (`C45_finding_busy`); automatic installation is not reported (`C45_finding_auto`), and aborts if busy (`C45_finding_auto_abort`).
* Logs: max-files=1 keeps two files (`C40_finding_one`); a file `.0` is overwritten (`C40_finding_zero`).
* Boot switch: halves of 4 GiB and more are cleared forever (`C41_finding_clear_forever`); MBR sector numbers are truncated (`C41_finding_truncated`); the GPT backup table is not protected (`C41_finding_gpt_backup`). Observations: the MBR write is not synced; `check_if_area_is_clear` loops at the end of the device; 34*512 is too small for 4 KiB sectors.
* Raw fallback: the clearing is not synced before the copy (`C42_finding_unsynced_clear`). Observation: devices with 4 KiB sectors lose the fallback copy and then fail.
* eMMC: success is reported although the selection did not take effect, if no partition was enabled (`C43_finding_false_success`). A refused write of `force_ro` is not noticed, since the byte only reaches the kernel in `fclose`, whose result is ignored (`C43_finding_force_ro`). Observation: the partition is cleared before the size of the image is checked.
* Streaming: a short 206 response gets a success header, then server and client abort (`C44_finding_header`); reads of 4 GiB and more are truncated (`C44_finding_4gib`).
* Progress: single precision makes it run backwards (`C46_finding_float`); 100 is reported on failure (`C46_finding_failed`) and for a single substep (`C46_finding_single`). Observation: a failing prune leaves a step open; `splice_with_progress` divides by zero for an empty file.
* Encryption: read errors at a sector boundary and a full disk are not noticed (`C47_finding_read_error`, `C47_finding_disk_full`); a rest below one sector makes decryption fail (`C47_finding_rest`).
* Image types: `*.tar*` matches anywhere in the name (`C48_extension` states the exact condition). Header-last copies may write one header more than announced before failing (`C49_finding_header`).
* Update handlers: the pre-install hook before unpacking into ext4/vfat and all hooks around raw chunk store images on ext4/vfat run without the slot mounted, contrary to the documentation (`C58_finding_pre_hook_not_mounted`, `C58_finding_post_hook_not_mounted`); chunk store images are written to NOR/NAND without erasing (`C58_finding_flash_not_erased`); the handlers look at the file name instead of the declared type (`C58_finding_type_ignored`).
* Boot name: `root=` is found inside other parameters (`C56_finding_unanchored`); the text `rauc.external` anywhere, also as `rauc.external=0`, declares every slot unused (`C56_finding_external_value`); a boot name equal to another slot's name is ambiguous (`C56_finding_ambiguous`). EFI: a slot may be primary and bad (`C55_efi_violated`).
* Configuration: an empty value of an option read leniently (keyring `path`, `directory`, handlers, TLS options, ...) is treated as missing (`C59_finding_empty_is_missing`); a negative size limit wraps to 2^64-n (`C59_finding_negative_limit`).
* Handlers: with several variants of an image, `RAUC_IMAGE_NAME_<N>` and `RAUC_IMAGE_DIGEST_<N>` describe the first image of the class, not the one RAUC would install (`C60_finding_variant`).
* Creation: success is reported without a bundle if fakeroot cannot be set up or the work directory cannot be removed (`C61_finding_fakeroot`, `C61_finding_workdir`); an image named like another's block hash index is replaced, its digest in the manifest is wrong (`C61_finding_index_name`); a file used by two images of which one is converted is removed (`C61_finding_shared`); `convert=` with an empty list removes the image (`C61_finding_empty_convert`); sub directories named `.rauc-workdir` are dropped (`C61_finding_dropped`).
* Tools: `rauc resign --append` makes bundles that no device accepts (`C62_finding_append`); `replace-signature` verifies the new signature but not that the payload matches it, for verity and crypt bundles (`C62_finding_payload`); a file that appears under the name of the output during the run is deleted (`C62_finding_race`); plain bundles are opened again after the check (`C62_finding_reopened`); a keyring given for signing stays configured if none was (`C62_finding_keyring`); `extract-signature` leaves a partial file behind (`C62_finding_partial_signature`).
* Conversion to casync: bundles in the crypt format can never be converted (`C63_finding_crypt`); nor can bundles in which two images use one file (`C63_finding_shared`); names such as `r.tgz` or `r.img.caibx` lead to a bundle that is reported as done but cannot be opened (`C63_finding_type`, `cv_tgz`); the manifest inside is not checked before its file names are used, a `/` leads out of the temporary directory (`C63_store` says when).
* Observations (not proved): an image named `manifest.raucm` is overwritten; `decrypt_bundle_payload` joins its temporary directory and name without a slash, so the decrypted payload stays in /tmp; the output check in `bundle_start` compares prefixes of strings and refuses sibling directories; the presence of the handler is not checked.
* Boot loader texts: with a `=` in the boot name GRUB's variables of the slot overwrite each other, the slot never becomes good or primary (`C64_finding_grub_equals`); the label of a foreign EFI entry can forge `BootNext` or `BootOrder` lines (`C64_finding_efi_label`), and is cut at a tab, so that a foreign entry counts as the slot's (`C64_finding_efi_tab`).
* Composefs: after two interrupted installations a link may refer to an artifact whose image is gone; then pruning, and with it every installation, fails until somebody repairs the repository by hand (`C65_finding_blocked`, reached in `Example.blocked_reached`); an object which is missing is only reported, and installing the same bundle again does not bring it back (`C65_finding_not_repaired`).
* Observation: `r_efi_get_current_bootname` dereferences a NULL BootCurrent.
- C66: nothing is removed from a slot's data directory while the slot is `pending`, so every installation which is interrupted after exporting its index leaves one more entry, without bound, until
  an installation completes (`C66_interrupted_accumulate`, `C66_bounded`). A status without a digest makes `r_slot_clean_data_directory` expect the name `hash-(null)` (slot.c:311, a NULL pointer
  for `%s`), although the other functions use `hash-unknown` for it (`C66_after_load`); the branch of the code for `hash-unknown` needs a slot without a status, which both callers exclude.
- C67: after a failed setup of dm-verity or dm-crypt, a failed pre-check of a verity bundle, or a failed dm-crypt setup the devices are removed without the deferred flag (dm.c:272,
  bundle.c:2944, :3019). If another process, typically udev, has the device open at that moment, the removal fails and the device stays for good (`C67_finding_busy_device_stays`). The same
  happens when RAUC is killed between creating the device and marking it (`C67_finding_killed_device_stays`). As the names `rauc-verity-bundle` and `rauc-crypt-bundle` are fixed, every later
  installation of a verity or crypt bundle then fails until the device is removed by hand or the system reboots (`C67_finding_stuck_blocks`).
- C68: a bundle with an image for a child slot only does not mark its boot slot bad; if that boot slot is primary, a power loss during the write makes the device boot with a half written child slot
  (`C68_child_only_violated`). After a power loss while a child slot was written, a bundle without an image for the child slot installs and activates the group although the status file records the child as
  pending (`C68_partial_bundle_violated`): nothing checks the status of the other slots of the group before activation.

- C69 (`C69_count_violated`): the activation count of a slot that was activated once and then installed again without activation is not sent by the service, `rauc status` shows 0.
- C69 (`C69_abort`): a client asserts if a slot has no state.
- C70 (`C70_size_violated`): for an image without a file (install hook, emptyfs) InspectBundle reports a size of 18446744073709551615 bytes.
- C71 (`C71_race_violated`): `rauc install` cannot tell whose `Completed` it receives. If another installation ends between the connection of the signals and the call of InstallBundle, the client reports that result (exit status 0) while its own installation still runs or fails later. `C71_last_counts_violated`: several results in one iteration of its main loop: the last one counts.
- C72 (`C72_colon_violated`): a bundle in the working directory whose name looks like `word:...` is taken for a URL, so `rauc install update:2.raucb` does not find the file. Observation: if `/proc/uptime` cannot be read, the header is `RAUC-Uptime: (null)`.
- C73 (`C73_negative_violated`): `content-range: bytes 0-3/-5` is accepted as a size of 2^64-5 bytes (and an empty size as 0, which is refused later).
- C74 (`C74_real_ids_violated`): whether privileges are dropped is decided by the real IDs; a set-user-ID rauc would start the streaming process with effective user 0.
- C75 (`C75_flush_violated`): the results of `fflush` and `fclose` are ignored, so a download onto a full disk is reported as successful (the signature check fails later).
- C77 (`C77_finding_directory_stays`): `--keyring FILE` leaves a configured keyring directory trusted. (`C77_finding_empty_hides`): for `info` and `extract` an empty or unreadable first configuration file hides later ones.
- C78: a temporary link left over by a crash blocks later updates of that link; two running slots of one class make the link depend on hash order; links of classes without a running slot are never removed (C78_finding_*)
- C79: with an unwritable status file each service restart logs the boot again (C79_finding_repeated)
- `rauc bundle . out.raucb` (and paths with `//` or `..`) passes the check 'Bundle cannot be created inside the content directory', which compares strings; `rauc bundle content content-out/x.raucb` is refused although it is a sibling (main.c:440-449).
- `rauc write-slot` does not touch the slot status, so an installation with `install-same=false` of the image recorded there is skipped although the slot holds something else (main.c:468-580).
- `rauc status` (readable) prints a slot with a parent twice if its class also has slots without a parent (C69_readable_violated). Slot descriptions and transaction IDs are missing from the JSON output of `rauc status`; metadata, handlers and verity parameters from `rauc info --output-format=json` (C83_info_meta_violated).
- C82: line breaks in bundle versions, descriptions or error messages forge records in readable and short event logs (C82_forged_violated); after a failed or interrupted write the next record is appended to the fragment, so a reader of JSON lines loses it (C82_fragment_violated); `events=` silently logs nothing (C82_finding_empty); the event types service and writeslot are not documented; the log writer has no lock although the install thread and the main thread log events. While building C82 a wrong constant in the model of the configuration (write-slot for writeslot) was found and corrected; all string constants of the model were then compared with the sources by script.
- C84 (`C84_alone_hang_violated`): without the service, `rauc install` starts the installation thread before it enters its main loop. If the installation ends first (e.g. the bundle does not exist), the thread itself runs `install_cleanup`, `g_main_loop_quit` has no effect on the loop that is started afterwards, and the command waits forever.
- After the reboot was triggered the timer source is removed and its destroy function drops the last reference to the D-Bus object, so the NextPoll change to 0 is probably never emitted (GDBus emits it in an idle callback which is destroyed with the object); the model only has the value that was set.
- C86: a request to install that is refused because another installation runs sets Operation to idle; from then on send_progress_callback drops all progress of the running installation (C86_progress_violated). Automatic installations never report progress (C86_auto_progress_violated).
- C86: r_on_handle_mark updates r_service_booted_slot_is_good only for the identifier booted: marking the booted slot good by its name does not start the poller, and marking it bad by its name does not stop it (C86_good_violated, C86_bad_violated); with prevent-late-fallback a failure to mark the others bad leaves the flag unset although the booted slot was marked good.
- C87: r_nbd_free_device ignores that r_nbd_remove_device failed to open the netlink socket: the socket descriptor is leaked (C87_finding_socket), the device may stay connected (C87_finding_device), and if the bundle could not be unmounted RAUC then waits for ever for a helper nobody told to end (C87_finding_hang). After unmounting, the kernel has already disconnected the device (disconnect-on-close), so the disconnect by number may hit the device of another process that got the number meanwhile (C87_finding_foreign). RAUC killed between connecting the device and setting disconnect-on-close leaves device and helper (C87_finding_killed).
- C88: after a failed umount r_mount_slot returns FALSE without an error; install.c:1213 and mark.c:159 then dereference the missing error (crash of the service)
- C89: `r_artifact_repo_prepare` frees `repo->artifacts` and `repo->possible_references` (artifacts.c:251-254) before `g_dir_open`; when that fails, GetArtifactStatus uses freed memory and the next installation frees it again; after a failed installation the status lists artifacts that were not copied or not linked
- C90: a valid bundle with an empty archive crashes the service (`sum_size * 100 / stat.st_size`, update_handler.c:269); after a read error tar/nandwrite stays behind with an open pipe
- C91: `files_artifact_install` does not compare the number of bytes copied with the announced size, nor the digest; `size=0` skips the copy
- C92: a mount source containing `/dev/loopN` of an unused loop device (e.g. `nas:/dev/loop0`, or a FUSE mount of an unprivileged user) makes all installations and status queries fail; devices are compared as text, so slots configured by symbolic link are not recognised as mounted
- C93: a named pipe in an artifact tree makes the check for open files (and so pruning and installing) hang in open(2); device nodes and sockets make a tree never prunable; files on mounts inside of a tree are not checked and removing such a tree deletes the rest and then fails; directories that are only in use as working directories are not detected.
- C94: an empty or blank --handler-args makes every installation with a custom handler fail; a word that begins with # ends the text of arguments silently; extra-mkfs-opts that end with an option lacking its value swallow the device.
- The service does not wait for a running installation when it gets a SIGTERM: it exits with status 0 in the middle of it (`C95_finding_unfinished`) and frees configuration and slots while the installation thread uses them (`C95_finding_freed`). A request to install before the bus name is acquired makes a service with automatic installation abort (`C95_finding_auto_busy`).
- Line breaks in values of the manifest are printed as they are and can imitate other fields, in an unverified bundle also a certificate chain (`C96_finding_forged`; the last line remains "Signature unverified", `C96_unverified`); NULL is printed as "(null)" (`C96_finding_null`).
- C97: line breaks in values are printed as they are: the description of an installed bundle can forge lines of the slot status (C97_finding_forged)
- C99: the maximum of the statistics starts at the least positive number (wrong for negative values, C99_finding_max); the progress bar is never empty and already full at 99 % (C99_finding_bar); no bar on terminals that report 0 columns (C99_finding_no_columns)
- The size of a bundle's payload is not covered by the signature: for verity and crypt bundles it is where the signature starts, so whoever offers the bundle can shorten or lengthen the payload and it is accepted with the same manifest (`C101_finding_size`). dm-verity then refuses all blocks unless the hash tree has another depth; on a device of the size of one level, the hash blocks are delivered as the payload (`C101_finding_hash_blocks`). Harmless as long as hash blocks are not a file system, but a signed payload size would exclude it.
- C104_finding_chain_file: a PEM file with several certificates given as --intermediate (or --cert) is cut to the first certificate without a message
- C105_finding_starved: each call of the method Poll postpones the next poll (and the reboot) to 30 s later even if it was due, so a client calling it every 20 s prevents updates for ever; C105_finding_no_retry: a failed attempt is never repeated while the server offers only that bundle
- C54_finding_custom_handler: after a successful update by a custom handler, no reboot criterion but failed-update can be met, so the poller never reboots into it; C54_finding_unchanged: updated-slots is met although no slot was written since all held their images already (the documentation says "new images")
- C109_uboot_reset_violated: contrib/uboot.sh gives every slot new attempts when it finds none, also a half-written one, if mark-bad emptied BOOT_ORDER (fw_setenv with an empty value deletes the variable, and the script then takes its default A B)
- C115_grub_three_violated: GRUB with three systems: after a failed update the device boots a third system and not the one that ran before, since mark-active rewrites ORDER from the slot table

## 6. Checks

`vcheck` rebuilds the last commit from a clean copy and checks sources and axioms. Wrong programs: a script applies an edit to a definition of the model in a scratch copy, rebuilds, and
records which theorems fail (`seeded/LOG.jsonl`); an edit that survives although it makes a claim false leads to a stronger theorem.
