{"id": "C01", "title": "Marking a slot bad makes it not bootable-good", "statement": "After `rauc status mark-bad` on a boot slot succeeds, the boot backend never again reports that slot as good, and never reports it as the primary slot, until somebody marks it good or active. This is claimed for barebox, U-Boot, GRUB and EFI.", "quantifier": "every prior bootloader environment, every set of configured slots in every iteration order, every boot name", "why_tests_cant": "the prior environment is an arbitrary key/value store (or EFI entry table) which cannot be enumerated", "anchors": ["src/bootloaders/barebox.c:r_barebox_set_state", "src/bootloaders/uboot.c:r_uboot_set_state", "src/bootloaders/grub.c:r_grub_set_state", "src/bootloaders/efi.c:r_efi_set_state"]}
{"id": "C02", "title": "Activating a slot makes it the primary slot", "statement": "After marking a slot active succeeds, querying the primary slot yields exactly that slot, on barebox, U-Boot, GRUB and EFI (BootNext and persistent mode).", "quantifier": "every prior bootloader environment, every well-formed configuration with unique boot names, every hash-table iteration order", "why_tests_cant": "arbitrary environment contents and iteration orders", "anchors": ["src/bootloaders/*.c:r_*_set_primary", "src/bootloaders/*.c:r_*_get_primary"]}
{"id": "C03", "title": "Activation is safe against a crash between environment writes", "statement": "If power is lost at any point while a slot is being activated or marked bad, the primary slot afterwards is either what it was before or the result of the completed operation; the slot being marked bad is never left newly bootable.", "quantifier": "every crash point (every prefix of the environment writes issued), every prior environment", "why_tests_cant": "crash points are not exercised by tests and range over all prefixes of writes and environments", "anchors": ["src/bootloaders/uboot.c:r_uboot_set_primary", "src/bootloaders/uboot.c:r_uboot_set_state", "src/bootloaders/barebox.c:barebox_state_set", "src/bootloaders/grub.c:grub_env_set"]}
{"id": "C04", "title": "Marking a slot good makes it good", "statement": "After `rauc status mark-good` on a boot slot succeeds the backend reports the slot as good.", "quantifier": "every prior bootloader environment and every slot", "why_tests_cant": "depends on every possible history of previous marks", "anchors": ["src/bootloaders/*.c:r_*_set_state", "src/bootloaders/*.c:r_*_get_state"]}
{"id": "C05", "title": "Marking one slot does not change the boot state of others", "statement": "Marking a slot good or bad, or activating a slot, never turns another slot's reported boot state from bad to good nor from good to bad.", "quantifier": "every environment, every pair of distinct slots, every configuration", "why_tests_cant": "needs non-interference over all keys of the environment", "anchors": ["src/bootloaders/*.c:r_*_set_state", "src/bootloaders/*.c:r_*_set_primary"]}
{"id": "C06", "title": "Slot identifiers resolve only to boot-selectable slots", "statement": "`mark` with 'other' only ever touches slots with a boot name, without a parent, of the booted slot's class and different from the booted slot; with an explicit name it touches exactly the slot of that name, which exists and has a boot name; a mark-good or mark-active request touches at most one slot.", "quantifier": "every configuration, every booted slot, every identifier string", "why_tests_cant": "identifier strings and configurations are unbounded", "anchors": ["src/mark.c:get_slots_by_identifier", "src/mark.c:mark_run"]}
{"id": "C07", "title": "Late fallback prevention only disables other slots", "statement": "With prevent-late-fallback, marking the booted slot good marks every other boot slot of the class bad and never the booted slot; without it no slot is marked bad.", "quantifier": "every configuration and booted slot", "why_tests_cant": "ranges over all configurations", "anchors": ["src/mark.c:mark_run"]}
{"id": "C08", "title": "A failed activation leaves the slot status untouched", "statement": "If the bootloader refuses to switch the primary slot, the slot's activation counter and timestamp are not changed; if it succeeds the counter grows by exactly one.", "quantifier": "every slot status, every backend outcome", "why_tests_cant": "needs all outcomes of an external tool", "anchors": ["src/mark.c:r_mark_active"]}
{"id": "C09", "title": "An installation never targets the running system", "statement": "The set of slots selected for installation never contains the booted slot nor any slot belonging to the booted slot's group, whatever the status data says.", "quantifier": "every slot configuration (parents, classes), every booted boot name/slot name/device, every slot status", "why_tests_cant": "slot trees of arbitrary depth and arbitrary status files", "anchors": ["src/install.c:determine_slot_states", "src/install.c:determine_target_install_group", "src/install.c:select_inactive_slot_class_member"]}
{"id": "C10", "title": "Target group is consistent", "statement": "All slots in the target group have the same root as the slot selected for their root class, each slot class occurs at most once, and each selected root belongs to the class it was selected for.", "quantifier": "every slot configuration", "why_tests_cant": "arbitrary slot trees", "anchors": ["src/install.c:determine_target_install_group", "src/slot.c:r_slot_get_parent_root"]}
{"id": "C11", "title": "Redundant-slot choice prefers broken, then never-installed, then oldest", "statement": "A slot is selected for a class whenever an inactive member exists. The selected slot is always inactive and of that class. If some inactive member is recorded as failed or was never installed (no timestamp), the selected slot is such a one; otherwise it has the oldest installation timestamp of all inactive members (with per-slot status files, where timestamps are unavailable, the first inactive member is taken).", "quantifier": "every list of candidate slots and statuses", "why_tests_cant": "arbitrary candidate sets", "anchors": ["src/install.c:select_inactive_slot_class_member"]}
{"id": "C12", "title": "Every bundle image class is planned exactly once, with the right variant", "statement": "When planning succeeds, each slot class occurring in the manifest has exactly one install plan, the plan's image belongs to that class and carries either the system's variant or, only if no exact match exists, no variant; every planned target is in the target group, is not read-only and has a handler for the image type; otherwise planning fails and nothing is written.", "quantifier": "every manifest image list, target group, system variant", "why_tests_cant": "image lists and groups are unbounded", "anchors": ["src/install.c:r_install_make_plans"]}
{"id": "C13", "title": "Boot slot is disabled before the first write and enabled only after the last", "statement": "In every run of an installation with the default handler, the boot slot of the target group is marked bad before any image is written, and marked active only after all images were written successfully; on any failure it is not activated.", "quantifier": "every manifest, every outcome of each step (hooks, handlers, bootloader), every stop point", "why_tests_cant": "all failure schedules and crash points", "anchors": ["src/install.c:launch_and_wait_default_handler"]}
{"id": "C14", "title": "Crash during installation never leaves an unfinished slot marked ok", "statement": "At every crash point of an installation, a slot whose image write was started and not completed is never recorded as 'ok' in the persistent slot status, so that a later installation of the same bundle does not skip it.", "quantifier": "every crash point of the status/write sequence, every earlier status, shared or per-slot status file", "why_tests_cant": "crash points between persistent writes", "anchors": ["src/install.c:handle_slot_install_plan", "src/status_file.c:r_slot_status_save"]}
{"id": "C15", "title": "A slot update is skipped only if it provably already holds the image", "statement": "An image write is skipped only if the slot status is ok, install-same is disabled and the recorded digest equals the image's digest.", "quantifier": "every status and image", "why_tests_cant": "all combinations of optional fields", "anchors": ["src/install.c:handle_slot_install_plan"]}
{"id": "C16", "title": "Only compatible bundles are installed", "statement": "Without the ignore option, a bundle whose compatible string differs from the system's is never written to any slot unless the bundle's own install-check hook accepted it; the minimum bundle version limit is enforced in either case unless it is explicitly ignored.", "quantifier": "every manifest, every configuration, every hook result, every argument combination", "why_tests_cant": "decision space including arbitrary version strings", "anchors": ["src/install.c:do_install_bundle", "src/install.c:verify_compatible", "src/install.c:check_version_limits"]}
{"id": "C17", "title": "Pinned manifest hash is enforced", "statement": "If the caller requires a manifest hash, installation proceeds past verification only for a bundle with a signed external manifest of exactly that hash.", "quantifier": "every bundle, every required hash", "why_tests_cant": "all bundles", "anchors": ["src/install.c:do_install_bundle"]}
{"id": "C18", "title": "A bundle stays mounted only during its installation", "statement": "Whatever step fails, a bundle that was mounted for installation is unmounted before the installation result is returned.", "quantifier": "every failure schedule", "why_tests_cant": "all failure schedules", "anchors": ["src/install.c:do_install_bundle"]}
{"id": "C19", "title": "Slot status survives a save/load cycle", "statement": "Every field of a slot status that was set before saving is read back identically by a later load.", "quantifier": "every slot status value", "why_tests_cant": "arbitrary strings and counters", "anchors": ["src/status_file.c:r_slot_status_save", "src/status_file.c:r_slot_status_load", "src/status_file.c:status_file_set_slot_status", "src/status_file.c:status_file_get_slot_status"]}
{"id": "C20", "title": "Saving one part of the shared status file keeps the rest", "statement": "Saving the system status leaves all slot sections of the shared status file unchanged, and saving slot statuses leaves the system section and unknown sections unchanged.", "quantifier": "every previous status file content", "why_tests_cant": "arbitrary file contents", "anchors": ["src/status_file.c:key_file_init_from_shared_status_file", "src/status_file.c:save_slot_status_globally", "src/status_file.c:r_system_status_save"]}
{"id": "C21", "title": "Version comparison is a total preorder on valid versions", "statement": "The comparison used for version limits is reflexive, transitive and total on all strings it accepts, agrees with the semantic-versioning precedence rules, and reports an error (never 'less or equal') on all others.", "quantifier": "every pair/triple of strings", "why_tests_cant": "infinite string domain, and numeric overflow corner cases", "anchors": ["src/utils.c:r_semver_less_equal", "src/utils.c:r_semver_parse"]}
{"id": "C22", "title": "A version limit fails closed", "statement": "With a configured minimum bundle version, a bundle without a version or with an unparsable version is rejected unless the limit is explicitly ignored.", "quantifier": "every version string pair", "why_tests_cant": "infinite string domain", "anchors": ["src/install.c:check_version_limits"]}
{"id": "C23", "title": "Parent links are resolved or the configuration is rejected", "statement": "Loading a configuration either reports an error or yields slots whose parent is a root slot (depth one), for every parent relation including cycles and long chains; children never carry boot names.", "quantifier": "every parent relation over every number of slots", "why_tests_cant": "unbounded graphs including cycles", "anchors": ["src/config_file.c:resolve_slot_parents", "src/config_file.c:fix_grandparent_links"]}
{"id": "C24", "title": "Bundle format options are applied exactly or not at all", "statement": "The bundle-formats option either yields exactly the set described by its tokens or fails leaving the previous set; the allowed set is never empty after success.", "quantifier": "every token list, every previous mask", "why_tests_cant": "unbounded token lists", "anchors": ["src/config_file.c:parse_bundle_formats"]}
{"id": "C25", "title": "Size options are read as written", "statement": "A size option with a binary suffix is read as number times 2^10/20/30/40, or an error is reported.", "quantifier": "every string", "why_tests_cant": "overflow corner cases over all strings", "anchors": ["src/utils.c:key_file_consume_binary_suffixed_string"]}
{"id": "C26", "title": "Hex encoding is lossless and decoding rejects everything else", "statement": "Decoding the hex encoding of any byte string yields it back, and decoding accepts only strings of exactly the expected length and hex digits.", "quantifier": "every byte string, every candidate string", "why_tests_cant": "unbounded domain", "anchors": ["src/utils.c:r_hex_encode", "src/utils.c:r_hex_decode"]}
{"id": "C27", "title": "Environment keys are well formed", "statement": "Every key/value pair exported to handlers has a key of upper-case letters, digits and underscores only, starting with the RAUC prefix, or is rejected.", "quantifier": "every input key", "why_tests_cant": "unbounded strings", "anchors": ["src/utils.c:r_prepare_env_key"]}
{"id": "C28", "title": "Exact read/write helpers transfer every byte once", "statement": "The exact write/read helpers either transfer exactly the requested bytes in order, or report an error, for every schedule of short transfers and interruptions.", "quantifier": "every schedule of short/interrupted system calls", "why_tests_cant": "kernel short-write schedules", "anchors": ["src/utils.c:r_write_exact", "src/utils.c:r_pwrite_exact", "src/utils.c:r_read_exact", "src/utils.c:r_pread_exact"]}
{"id": "C29", "title": "Chunk lookup never returns wrong data", "statement": "A chunk returned from a hash index has exactly the requested hash (for indices that are verified on read), lies inside the valid window, and an index over intact data finds every chunk it contains.", "quantifier": "every index, every chunk content, every window", "why_tests_cant": "binary search with duplicates over arbitrary indices", "anchors": ["src/hash_index.c:r_hash_index_get_chunk"]}
{"id": "C30", "title": "Adaptive installation writes exactly the image", "statement": "After a successful block-hash-index installation the target slot starts with exactly the bundle image's bytes, whatever the old contents of the target and seed slots and however stale their indices are; the copy never fails because of such contents.", "quantifier": "every image, every prior content of target and seed slot, every stored index", "why_tests_cant": "arbitrary contents; correctness needs an induction over the chunks and assumes collision freeness of SHA-256", "anchors": ["src/update_handler.c:copy_block_hash_index_image_to_dev", "src/hash_index.c"]}
{"id": "C31", "title": "dm-verity tree creation and verification agree", "statement": "Verifying a hash tree that was created with the same salt over the same data succeeds with the same root hash; verification succeeds for changed data or root hash only by a hash collision.", "quantifier": "every payload of any size, every salt", "why_tests_cant": "arbitrary payload sizes (tree depth)", "anchors": ["src/verity_hash.c:verity_create_or_verify_hash_tree"]}
{"id": "C32", "title": "Bundle trailer parsing", "statement": "Opening a bundle file either fails or splits it as payload ++ signature ++ 8-byte big-endian signature size, with a non-empty signature not larger than the configured limit; appending a signature and opening the result yields the same payload and signature.", "quantifier": "every file content", "why_tests_cant": "arbitrary byte strings", "anchors": ["src/bundle.c:open_local_bundle", "src/bundle.c:open_remote_bundle", "src/bundle.c:append_signature_to_bundle"]}
{"id": "C33", "title": "No bundle content is used before verification", "statement": "With verification enabled, a bundle is accepted only if its signature verified against the configured keyring; the manifest used is the signed one; the format is allowed; plain bundles are fully verified with exclusive access and never streamed; mounting happens only after that.", "quantifier": "every outcome of the cryptographic primitives, every bundle, every configuration", "why_tests_cant": "decision space over all outcomes", "anchors": ["src/bundle.c:check_bundle", "src/bundle.c:check_bundle_payload", "src/bundle.c:mount_bundle"]}
{"id": "C34", "title": "Exclusive bundle access", "statement": "A bundle for which exclusive access was confirmed is a regular file, owned by root or the current user, not writable by group or others, on a trusted mount, and has no other open writer.", "quantifier": "every stat/mount/lease result", "why_tests_cant": "all combinations of file-system state", "anchors": ["src/bundle.c:check_bundle_access", "src/bundle.c:take_bundle_ownership"]}
{"id": "C35", "title": "Accepted manifests cannot escape the bundle directory", "statement": "A manifest accepted for installation names only image files without a path separator, with a SHA-256 digest of 64 hex characters and a non-negative size; external manifests carry valid verity data, internal ones none; hooks imply a hook file.", "quantifier": "every manifest", "why_tests_cant": "arbitrary manifests", "anchors": ["src/manifest.c:check_manifest_internal", "src/manifest.c:check_manifest_external", "src/manifest.c:check_manifest_bundled"]}
{"id": "C36", "title": "Artifact repositories expose at most one version per artifact", "statement": "After installing and committing, for each parent and artifact name at most one artifact instance is referenced, and it is the one just installed; other parents' references are unchanged.", "quantifier": "every history of installations, each interrupted at any point, starting from an empty repository; for a single activation or commit: every repository state without duplicate references", "why_tests_cant": "histories of operations", "anchors": ["src/artifacts.c"]}
{"id": "C37", "title": "Pruning never removes referenced or open artifacts", "statement": "Pruning removes only artifact instances which no parent references and which are not in use; everything referenced stays available.", "quantifier": "every repository state", "why_tests_cant": "arbitrary repository states", "anchors": ["src/artifacts.c:r_artifact_repo_prune"]}
{"id": "C38", "title": "Polling back-off is bounded and monotone", "statement": "The delay until the next poll is at least the configured interval, never exceeds the configured maximum, and does not shrink while consecutive errors accumulate; a success resets it.", "quantifier": "every configuration accepted by the parser, every number of recent errors", "why_tests_cant": "integer overflow for large error counts", "anchors": ["src/polling.c:polling_reschedule", "src/config_file.c"]}
{"id": "C39", "title": "A bundle is auto-installed at most once", "statement": "The poller never starts a second installation attempt for the same manifest hash, never installs a bundle not fulfilling the configured candidate and install criteria, never while another operation runs, and the installation is bound to the inspected manifest hash.", "quantifier": "every sequence of poll results and installation results", "why_tests_cant": "histories of polls", "anchors": ["src/polling.c"]}
{"id": "C40", "title": "Log files stay bounded", "statement": "After any number of events, each log file is at most the configured size unless a single record exceeds it, and at most max-files rotated files exist.", "quantifier": "every sequence of events", "why_tests_cant": "unbounded histories", "anchors": ["src/event_log.c"]}
{"id": "C41", "title": "Boot partition switching never touches the active half", "statement": "For MBR/GPT boot region updates all writes fall inside the inactive half of the configured region, which does not overlap any other partition, and the partition table is switched only after the image was written completely.", "quantifier": "every region configuration, partition table and image size", "why_tests_cant": "64/32-bit arithmetic corner cases", "anchors": ["src/mbr.c", "src/gpt.c", "src/update_handler.c:img_to_boot_mbr_switch_handler", "src/update_handler.c:clear_boot_switch_partition"]}
{"id": "C42", "title": "Raw fallback update keeps one bootable copy", "statement": "At every crash point of a boot-raw-fallback update, at least one of the two copies is complete, and this remains true for any number of interrupted and restarted updates.", "quantifier": "every crash point, every number of retries, every image", "why_tests_cant": "crash histories", "anchors": ["src/update_handler.c:img_to_boot_raw_fallback_handler"]}
{"id": "C43", "title": "eMMC boot partition toggling", "statement": "The eMMC handler writes only the inactive boot partition, then selects it, preserving the boot-acknowledge bit; it reports success only if the selection took effect; then nothing of what was in the boot partition before is left: behind the image there are zeros, up to the size limit or, without one, up to the place where the device reports that there is no space left.", "quantifier": "every EXT_CSD value, every outcome", "why_tests_cant": "register value space and kernel misbehaviour", "anchors": ["src/emmc.c", "src/update_handler.c:img_to_boot_emmc_handler"]}
{"id": "C44", "title": "Streaming read replies carry exactly the requested bytes", "statement": "Each read request gets exactly one reply; a success reply is sent only after an HTTP 206 response and carries exactly the requested number of bytes received from the server in order; a request is attempted at most six times.", "quantifier": "every sequence of transfer outcomes and chunk deliveries", "why_tests_cant": "network schedules", "anchors": ["src/nbd.c:finish_read", "src/nbd.c:write_cb", "src/nbd.c:r_nbd_run_server"]}
{"id": "C45", "title": "Only one operation at a time, truthfully reported", "statement": "The service never runs two installations concurrently, and the published operation is 'installing' exactly while an installation runs.", "quantifier": "every sequence of D-Bus requests and installation completions", "why_tests_cant": "request interleavings", "anchors": ["src/service.c:r_on_handle_install_bundle", "src/service.c:service_install_cleanup", "src/install.c:install_run"]}
{"id": "C46", "title": "Progress never runs backwards nor above 100", "statement": "For any correctly nested sequence of progress steps the reported percentage is between 0 and 100 and never decreases within a step tree, and it reaches 100 exactly when the root step completes successfully.", "quantifier": "every step tree", "why_tests_cant": "arbitrary nesting", "anchors": ["src/context.c:r_context_begin_step", "src/context.c:r_context_end_step"]}
{"id": "C47", "title": "Payload encryption is invertible per sector", "statement": "Decrypting an encrypted payload with the same key yields the payload; each 4096-byte sector uses the IV of its position in 512-byte units; payloads that are not sector multiples are rejected.", "quantifier": "every payload, key, size limit", "why_tests_cant": "arbitrary sizes", "anchors": ["src/crypt.c:encrypt_or_decrypt"]}
{"id": "C48", "title": "Handler choice is determined by image and slot type", "statement": "An update handler is found iff the image has an install hook or the (image type, slot type) pair is supported; each pair has exactly one handler; the image type derived from a file name is the most specific matching pattern and is always a supported type.", "quantifier": "every image type, slot type, file name", "why_tests_cant": "all strings", "anchors": ["src/update_handler.c:get_update_handler", "src/update_handler.c:derive_image_type_from_filename_pattern"]}
{"id": "C49", "title": "Raw image copy writes at most the announced size", "statement": "Copying an image never writes more bytes than the size announced in the manifest, reports success only if exactly that many bytes were copied, and with header-last mode writes the header only after everything else was synced.", "quantifier": "every input stream, every chunking of reads", "why_tests_cant": "read schedules", "anchors": ["src/update_utils.c:r_copy_stream_with_progress", "src/update_handler.c:copy_raw_image"]}
{"id": "C50", "title": "Manifest serialization round trip", "statement": "Parsing the serialization of a manifest yields the same manifest.", "quantifier": "every manifest accepted by the checks", "why_tests_cant": "arbitrary manifests", "anchors": ["src/manifest.c:prepare_manifest", "src/manifest.c:parse_manifest"]}
{"id": "C51", "title": "Shell output cannot be injected", "statement": "The machine-readable shell output for any variables with well-formed names and arbitrary values, evaluated by a POSIX shell, assigns exactly these values and executes nothing.", "quantifier": "every list of variables, every value string", "why_tests_cant": "all strings, including quotes, newlines and substitutions", "anchors": ["src/utils.c:r_ptr_array_env_to_shell", "src/shell.c:r_shell_from_manifest_meta", "src/main.c"]}
{"id": "C52", "title": "Symbolic links are replaced atomically", "statement": "While a link is replaced, at every crash point and for every failing system call, the name has its old contents or links to the new target; success means it links to the new target; a later attempt after a crash works.", "quantifier": "every directory state, every failure, every crash point", "why_tests_cant": "crash points", "anchors": ["src/utils.c:r_update_symlink", "src/artifacts.c:r_artifact_repo_commit"]}
{"id": "C53", "title": "Allowed signers are enforced", "statement": "If the configuration lists allowed signer common names, every bundle accepted with verification enabled was signed by exactly one signer whose common name is in the list and contains no NUL byte.", "quantifier": "every bundle, every answer of the cryptographic library, every list of allowed names", "why_tests_cant": "Tests use a handful of certificates; the claim ranges over all signer lists, names with embedded NULs and both signature kinds.", "anchors": ["src/signature.c:cms_check_signer_cns", "src/signature.c:cms_get_cert_chain", "src/bundle.c:check_bundle"]}
{"id": "C54", "title": "Polls and automatic reboots happen only when allowed", "statement": "The poller contacts the server or runs the reboot command only when its timer has expired, the booted slot was marked good, no inhibit file exists and no installation is running; the reboot command is run only after a poller installation whose result meets the configured reboot criteria; after it succeeded nothing is polled any more.", "quantifier": "every history of D-Bus requests, timer callbacks, poll results, installation results and marks", "why_tests_cant": "interleavings of timers, marks and installations over arbitrarily long histories", "anchors": ["src/polling.c:polling_context_dispatch", "src/polling.c:polling_check_reboot_criteria", "src/polling.c:polling_install_cleanup"]}
{"id": "C55", "title": "The two boot queries agree", "statement": "If a primary slot is reported, it is a configured slot and is reported good at the same time; if the state of every boot slot can be determined and one is good, a primary slot is reported; it is the first good slot of the boot order (U-Boot, GRUB) or one with the highest priority (barebox).", "quantifier": "every slot table, every content of the boot loader environment and every set of readable variables", "why_tests_cant": "environments are also written by boot loaders, users and interrupted requests; tests use a few hand-written ones", "anchors": ["src/bootloaders/uboot.c:r_uboot_get_primary", "src/bootloaders/uboot.c:r_uboot_get_state", "src/bootloaders/grub.c:r_grub_get_primary", "src/bootloaders/barebox.c:r_barebox_get_primary", "src/bootloaders/efi.c:r_efi_get_primary"]}
{"id": "C56", "title": "The running slot is recognised", "statement": "rauc.slot=NAME on the kernel command line makes the slot with that boot name or name the booted slot whatever else is there; rauc.external or an NFS root makes all slots inactive; otherwise the boot loader's answer, then the root device in any supported notation decides; if nothing identifies a slot, determining the slot states fails; the group of the recognised slot is never targeted by an installation.", "quantifier": "every kernel command line, slot table, resolution of device links and answer of the boot loader", "why_tests_cant": "command lines are arbitrary texts; parameters may hide each other by substring matches", "anchors": ["src/context.c:get_bootname", "src/context.c:get_cmdline_bootname_explicit", "src/context.c:get_cmdline_bootname_root", "src/bootchooser.c:r_boot_get_current_bootname", "src/install.c:determine_slot_states"]}
{"id": "C57", "title": "Custom boot loader backends are driven as documented", "statement": "Every request to a custom backend is exactly one call with the documented arguments; a state or primary slot is reported only if the backend exited successfully and printed exactly good, bad or a configured boot name (up to surrounding white space), otherwise an error; with a backend that remembers what it is told, activation makes the slot primary and marking sets its state; noop never calls anything, changes succeed and queries fail.", "quantifier": "every backend program (any answers, any state), slot table and request", "why_tests_cant": "the backend is third-party code with arbitrary behaviour", "anchors": ["src/bootloaders/custom.c", "src/bootchooser.c:r_boot_set_state", "src/bootchooser.c:r_boot_get_primary"]}
{"id": "C58", "title": "Update handlers write exactly what the image and slot type promise, inside their hooks and mounts", "statement": "Installing an image into a slot: an enabled pre-install hook succeeds before the first write; the post-install hook runs on the complete content and RAUC writes nothing afterwards; success is reported iff no mandatory step failed, and then the slot holds exactly the image, or a new file system of the slot's type with exactly the archive's files, and the enabled hooks were run; whatever fails, nothing stays mounted unless unmounting itself failed (then the installation fails); the device node is written only while the slot is not mounted. Hooks of mountable slot types run with the slot mounted.", "quantifier": "every image, slot type, slot options, hook selection, every outcome of every external step (mkfs, mount, casync, tar, copy, flash tools, hooks), depending on everything before", "why_tests_cant": "eleven handlers with ten steps each: failure schedules times option combinations", "anchors": ["src/update_handler.c:archive_to_ext4_handler", "src/update_handler.c:archive_to_vfat_handler", "src/update_handler.c:archive_to_ubifs_handler", "src/update_handler.c:archive_to_jffs2_handler", "src/update_handler.c:img_to_fs_handler", "src/update_handler.c:img_to_raw_handler", "src/update_handler.c:img_to_nand_handler", "src/update_handler.c:img_to_nor_handler", "src/update_handler.c:img_to_ubivol_handler", "src/update_handler.c:img_to_ubifs_handler", "src/update_handler.c:hook_install_handler", "src/update_handler.c:write_image_to_dev", "src/update_handler.c:casync_extract_image", "src/update_handler.c:mount_and_run_slot_hook", "src/update_handler.c:vfat_label_generator"]}
{"id": "C59", "title": "A system configuration is loaded exactly as documented or rejected", "statement": "A configuration (with command line overrides applied) is accepted if and only if every section and every option in it is a documented one for that section and bootloader, every value has the documented form, and the documented constraints between options hold; the loaded configuration then has, for every option, exactly the configured value or the documented default. In particular no unknown or misspelled option is ever silently ignored, the keyring flags are true only if the file says true or 1, the limits are positive, at least one bundle format is enabled, and the last override of an option wins without touching any other option. (An optional path or text option with an empty value counts as absent, and numbers are read as GLib reads them, so a negative size limit wraps: both stated as findings.)", "quantifier": "every key file (any groups, keys and values, in any order), every list of overrides, every path resolution", "why_tests_cant": "the input is an arbitrary file with some hundred options in any combination", "anchors": ["src/config_file.c:parse_config", "src/config_file.c:parse_system_section", "src/config_file.c:parse_keyring_section", "src/config_file.c:parse_slots", "src/config_file.c:parse_artifact_repos", "src/config_file.c:load_config", "src/config_file.c:default_config", "src/utils.c:check_remaining_keys", "src/utils.c:check_remaining_groups"]}
{"id": "C60", "title": "Handlers and hooks are told the truth", "statement": "A pre-install, post-install or custom handler finds every documented variable with its documented value: RAUC_SLOTS numbers all slots from 1, RAUC_TARGET_SLOTS lists exactly the numbers of the target slots, RAUC_SLOT_*_<N> describe slot N, RAUC_IMAGE_*_<N> the image for target slot N, and the system and bundle variables; slot hooks and bundle hooks likewise. Neither the service's environment, the system-info handler nor a bundle's meta data can change any of these; a bundle can only add variables named RAUC_META_*, the system-info handler only new ones named RAUC_*; everything else (PATH, LD_PRELOAD, ...) is inherited unchanged. The variant printed by the system-info handler overrides the configured source. Lines printed by a handler are shown as documented and never influence its result, which is its exit status; an install-check hook rejects with exit codes from 10 and its last line on stderr.", "quantifier": "every inherited environment, slot table in any order, target group, manifest, meta data, handler output", "why_tests_cant": "the values come from an arbitrary environment, configuration and bundle; a test sees one of each", "anchors": ["src/install.c:prepare_environment", "src/install.c:add_system_environment", "src/install.c:parse_handler_output", "src/install.c:launch_and_wait_handler", "src/install.c:run_bundle_hook", "src/update_handler.c:run_slot_hook_extra_env", "src/context.c:launch_and_wait_variables_handler", "src/context.c:get_system_info_from_handler", "src/shell.c:r_shell_from_manifest_meta", "src/utils.c:r_environ_setenv_ptr_array"]}
{"id": "C61", "title": "A created bundle holds what it was created from", "statement": "When `rauc bundle` reports success and leaves a file, a device with the corresponding keyring accepts that file, and extracting it gives back the content directory: the manifest describes every image with the size and SHA-256 of the file the author supplied, all files that RAUC has no business with are unchanged, block hash indexes and converted images are added as requested, and images are removed only where a conversion replaces them; for verity and crypt bundles the signed manifest carries the verity root hash, salt, size and key that make the payload check and the decryption succeed. Symlinks out of the directory, special files and hidden top level directories are refused. An existing file of the output name is never touched, and if the creation fails nothing is left under that name.", "quantifier": "every content directory tree, manifest, format, choice of conversions and adaptive methods, salt, key, failure of any step", "why_tests_cant": "directory trees, manifests and combinations of methods are unbounded; each test packs one", "anchors": ["src/bundle.c:create_bundle", "src/bundle.c:link_contentdir_to_workdir", "src/bundle.c:check_workdir_content", "src/bundle.c:generate_adaptive_data", "src/bundle.c:convert_images", "src/bundle.c:encrypt_bundle_payload", "src/bundle.c:sign_bundle", "src/bundle.c:create_verity", "src/bundle.c:extract_bundle", "src/manifest.c:sync_manifest_with_contentdir", "src/manifest.c:update_manifest_checksums"]}
{"id": "C62", "title": "Tools for existing bundles keep their content", "statement": "`rauc resign`, `rauc replace-signature` and `rauc encrypt` produce a bundle whose payload is byte for byte that of the input; only what was verified is signed again; a device that trusts the new signer accepts the result, sees the same manifest and extracts the same content; encrypting accepts only crypt bundles and a device with the key accepts the result as the same bundle; a replaced signature was verified with the given (or configured) keyring, and the configured keyring is in force again afterwards; `rauc extract-signature` writes exactly the signature, and putting it back restores the original file. An existing output file is never touched, and a tool that fails leaves nothing under the name of the output.", "quantifier": "every bundle, format, signature, keyring configuration, failure of any step, changes of the input file between check and copy", "why_tests_cant": "bundles, manifests and interleavings with other writers are unbounded; tests convert a few fixed bundles", "anchors": ["src/bundle.c:resign_bundle", "src/bundle.c:replace_signature", "src/bundle.c:extract_signature", "src/bundle.c:encrypt_bundle", "src/bundle.c:truncate_bundle", "src/bundle.c:load_manifest_from_bundle", "src/main.c:resign_start", "src/main.c:replace_signature_start"]}
{"id": "C63", "title": "Converting to casync keeps the content", "statement": "`rauc convert` on a bundle that was verified produces a bundle that a device with the corresponding keyring accepts. For each image whose slot class is not excluded the bundle contains, instead of the file, an index (.caidx for archives, .caibx otherwise) from which, with the chunk store, exactly the original content can be restored; size and checksum in the manifest are still those of the original; excluded images, hooks and all other files and all other manifest fields are unchanged. The chunk store only grows: what other bundles need from it stays available, even if the conversion fails. Nothing outside is touched. An existing output file is never replaced, and a failed conversion leaves none.", "quantifier": "every bundle, manifest, set of images and file names, exclusion list, chunk store, failure of any step", "why_tests_cant": "names, types, links between files and stores are unbounded; tests convert one bundle", "anchors": ["src/bundle.c:create_casync_bundle", "src/bundle.c:convert_to_casync_bundle", "src/bundle.c:casync_make_arch", "src/bundle.c:casync_make_blob", "src/bundle.c:image_is_archive", "src/update_handler.c:derive_image_type_from_filename_pattern"]}
{"id": "C64", "title": "RAUC and the boot loader's tools understand each other", "statement": "RAUC talks to the boot loader through fw_printenv/fw_setenv, grub-editenv, barebox-state and efibootmgr. Whatever other variables, values, lines and entries there are, the value RAUC takes from a tool's output is the one stored in the variable it asked for (never that of a variable with a similar name), a failed tool or malformed output is an error and not a value, and the command lines RAUC builds change exactly the variables of the slots it means. Hence the guarantees for marking and activating slots (C01 to C05, C55) hold for the variables as the boot loader sees them.", "quantifier": "every environment, set of slots and boot names, output text, exit code, request, crash between two tool runs", "why_tests_cant": "outputs and variable contents are unbounded texts; tests use mock tools with a few canned outputs", "anchors": ["src/bootloaders/uboot.c:uboot_env_get", "src/bootloaders/uboot.c:uboot_env_set", "src/bootloaders/grub.c:grub_env_get", "src/bootloaders/grub.c:grub_env_set", "src/bootloaders/barebox.c:barebox_state_get", "src/bootloaders/barebox.c:barebox_state_set", "src/bootloaders/efi.c:efi_bootorder_get", "src/bootloaders/efi.c:efi_bootorder_set", "src/bootloaders/efi.c:efi_bootentry_create", "src/bootloaders/efi.c:efi_set_bootnext"]}
{"id": "C65", "title": "Composefs artifacts always have all their objects", "statement": "For an artifact repository of type composefs: at every point in time, whatever was installed before and wherever installations were interrupted, the artifact an active name stands for has a readable image, and every object a regular file in that image refers to (at any depth) is in the object store with its complete content. An installation never touches the image or the objects of an artifact a process has open. After a successful installation the store has no objects other than those needed by artifacts that are active (or half activated or in use). Images which cannot be read, which name objects that are not two hexadecimal digits, a slash and 62 hexadecimal digits, or whose objects are neither in the bundle nor in the store, are refused.", "quantifier": "every history of installations, every crash point, every image tree, every listing order, every subset of failing system calls", "why_tests_cant": "histories, crash points and image trees are unbounded; object contents lost in a crash before the sync cannot be provoked in a unit test", "anchors": ["src/artifacts_composefs.c:composefs_object_name_valid", "src/artifacts_composefs.c:composefs_collect_objects", "src/artifacts_composefs.c:r_composefs_artifact_repo_prune", "src/artifacts_composefs.c:r_composefs_artifact_install", "src/artifacts.c:r_artifact_repo_prune", "src/artifacts.c:r_artifact_install"]}
{"id": "C66", "title": "A block hash index kept in a slot's data directory belongs to the image named by its digest", "statement": "For a slot with a data directory: after any sequence of installations (successful, failed, or interrupted by a crash at any point), reads of the status and uses of the slot as a chunk source, with removals, moves and writes that may fail, an index found under hash-<digest> (digest other than 'unknown') is the index of an image that was installed with that digest; entries not beginning with hash- are never created, changed or removed; after a successful installation the status names the image's digest with 'ok' and, if removing works, no other hash- entry is left; an adaptive update that succeeds leaves the new image's index. Only interrupted installations can leave more entries behind, one each.", "quantifier": "all histories of operations on the slot, all crash points, all outcomes of the file system calls, global and per-slot status", "why_tests_cant": "The state of the directory depends on the whole history including where each earlier installation was interrupted; tests cover single installations without crashes.", "anchors": ["src/slot.c:r_slot_get_checksum_data_directory", "src/slot.c:r_slot_move_checksum_data_directory", "src/slot.c:r_slot_clean_data_directory", "src/status_file.c:r_slot_status_load", "src/status_file.c:r_slot_status_save", "src/install.c:handle_slot_install_plan", "src/hash_index.c:r_hash_index_export_slot"]}
{"id": "C67", "title": "Mounting a bundle leaves no kernel devices behind and mounts only the checked device stack", "statement": "For every bundle format and every combination of failing system calls: if mounting fails, no loop/NBD device, device mapper device, mounted file system or mount point directory created by it remains; if it succeeds, the file system is mounted from the top of exactly the stack for the format (device with the verity table for the manifest's hash, salt and size, good status reported; dm-crypt above it for crypt bundles), and after unmounting everything is gone once other users closed the devices. The verity and crypt tables carry no optional arguments and consist of exactly the values of the accepted manifest. Loop devices in use by others are never touched, the one used is read-only, limited to the payload size and auto-cleared.", "quantifier": "all outcomes of all system calls, all interleavings with other users of loop devices, any number of other processes holding the devices, all points at which the process may be killed, all accepted manifests", "why_tests_cant": "The error paths depend on which of a dozen kernel calls fails and on who else has the devices open at that moment; tests cannot produce these failures.", "anchors": ["src/bundle.c:mount_bundle", "src/bundle.c:prepare_verity", "src/bundle.c:prepare_crypt", "src/bundle.c:umount_bundle", "src/dm.c:r_dm_setup", "src/dm.c:r_dm_remove", "src/dm.c:check_status", "src/mount.c:r_setup_loop"]}
{"id": "C68", "title": "An update is atomic from the boot loader's data to the content of the slots", "statement": "Whenever power fails during `rauc install` of a bundle with an image for a boot slot - between two steps or in the middle of a request to the boot loader - the device afterwards boots either the system it ran before, none of whose slots changed, or the new slot with every image of the bundle completely written and recorded as ok; if it boots the new slot earlier, nothing was written yet. A reported success means the new slot is primary and complete. This stays true over any number of interrupted updates.", "quantifier": "all configurations, manifests, plans, prior boot loader data, outcomes of every step, readability of the boot loader data, crash points including the middle of a boot loader request, and any number of updates, for U-Boot, GRUB, Barebox and EFI", "why_tests_cant": "the claim joins every crash point of the installation with every partial boot loader transaction and every history of earlier interrupted updates", "anchors": ["src/install.c: launch_and_wait_default_handler, handle_slot_install_plan, do_install_bundle", "src/mark.c: r_mark_bad, r_mark_active", "src/bootchooser.c: r_boot_set_state, r_boot_set_primary", "src/bootloaders/*.c", "src/status_file.c: r_slot_status_save"]}
{"id": "C69", "title": "`rauc status` and GetSlotStatus show the true state of the system", "statement": "`rauc status --output-format=shell` with a service shows every slot of the system configuration under exactly one number, no other slot, and for each slot the device, class, type, parent, state, boot name, boot status, mount point and (with --detailed) the recorded installation data that the service has; the primary slot, booted slot, compatible, variant and artifact repositories are those of the service. The output is a valid shell script that assigns every documented variable exactly once, whatever characters names, paths and descriptions contain, and the word lists can be split back.", "quantifier": "all slot tables, stored slot status contents, orders of the client's hash table, boot states, artifact repositories, strings", "why_tests_cant": "must hold for every table, every string (quoting) and every hash order", "anchors": ["src/service.c: convert_slot_status_to_dict, create_slotstatus_array, r_on_handle_get_slot_status", "src/main.c: retrieve_slot_states_via_dbus, retrieve_status_via_dbus, status_formatter_shell, status_start"]}
{"id": "C70", "title": "`rauc info` and InspectBundle show what the manifest says, and never the key of an encrypted bundle", "statement": "`rauc info --output-format=shell` is a valid shell script that assigns the documented variables, with the values of the manifest, for the bundle, its meta data and every image in order; InspectBundle (and json-2) reports every documented entry under its key, two manifests give the same reply exactly if they agree in all visible information, and neither output depends on the dm-crypt key.", "quantifier": "all manifests with any number of images and meta data groups and any strings", "why_tests_cant": "must hold for every manifest and every string; non-disclosure of the key is a statement over pairs of manifests", "anchors": ["src/main.c: info_formatter_shell", "src/manifest.c: r_manifest_to_dict", "src/service.c: r_on_handle_inspect_bundle"]}
{"id": "C71", "title": "the exit status of `rauc install` tells the result of the installation it asked for", "statement": "When `rauc install` (as client of the service) ends, it ends with 0 only if the installation it asked for succeeded; with the result of that installation if neither Ctrl+C was pressed nor the service disappeared; with 2 if the service refused or disappeared and 3 after Ctrl+C; and it ends once its installation has ended.", "quantifier": "all interleavings of the client, the service, other clients, polling, automatic installation, Ctrl+C and death of the service, and all groupings of callbacks into main loop iterations", "why_tests_cant": "depends on the order of D-Bus signals of several parties; tests see only one schedule", "anchors": ["src/main.c: install_start, on_installer_completed, on_installer_changed, on_sigint", "src/service.c: r_on_handle_install_bundle, service_install_cleanup"]}
{"id": "C72", "title": "the options given for a bundle are the ones that are used, all of them and no others", "statement": "InstallBundle and InspectBundle accept a request exactly if every option is documented and of the right type, and use exactly the given values; `rauc install` options arrive unchanged at the service; the first HTTP request for a streamed bundle uses the given URL, the given credentials or else the configured ones, verifies the server unless explicitly disabled, and carries the given headers plus the information headers enabled in the configuration (and no other system information); later requests carry no information headers. The bundle name handed to the service is an existing absolute path or a URL.", "quantifier": "all option sets, dictionaries in any order (with unknown, mistyped and repeated keys), configurations, system information, working directories and arguments", "why_tests_cant": "an end-to-end statement over all option combinations; tests check some options in isolation", "anchors": ["src/main.c: install_start, resolve_bundle_path", "src/service.c: convert_dict_to_bundle_access_args, r_on_handle_install_bundle, r_on_handle_inspect_bundle", "src/bundle.c: assemble_info_headers, check_bundle", "src/nbd.c: nbd_configure, start_configure, prepare_curl, start_read"]}
{"id": "C73", "title": "a streamed bundle is opened only on a correct first response, and polling knows what the server offers", "statement": "A streamed bundle is opened exactly if the server answers the request for bytes 0-3 with status 206, four bytes and a content-range header for these bytes; its size is the one in the last such header; 204, 304, 401 and 404 are distinguished exactly. With a server whose ETags identify its bundles, after every successful poll the known manifest is the one offered now, in every history of offers, withdrawals, conditional answers and failures; a failed poll changes nothing; If-None-Match is sent exactly with the remembered ETag.", "quantifier": "all sequences of header lines, status codes, outcomes; all histories of offers and polls", "why_tests_cant": "hostile or unusual responses are unbounded; coherence is an invariant over histories", "anchors": ["src/nbd.c: header_cb, finish_configure, nbd_configure", "src/polling.c: polling_fetch"]}
{"id": "C74", "title": "the process that talks to servers runs without privileges and cannot get them back", "statement": "If the service runs as root, the streaming process is started only if the configured (or default) user exists, and then has exactly the user ID, group ID and supplementary groups of that user; if that user is not root, no sequence of system calls gives it another identity or group. Without root privileges it runs as the caller.", "quantifier": "all user databases, configured users, initial groups of the service, and all sequences of credential-changing system calls afterwards", "why_tests_cant": "impossibility of regaining privileges is a statement over all system call sequences", "anchors": ["src/nbd.c: nbd_server_child_prepare, nbd_server_child_setup, r_nbd_start_server"]}
{"id": "C75", "title": "a downloaded bundle never exceeds the configured size, and success means it is complete", "statement": "With a size limit, the downloaded file never becomes larger than the limit, whatever the server sends or announces and wherever the transfer stops; the file is always a beginning of what the server sent; an existing file is never overwritten; success means that the file is everything that was sent.", "quantifier": "all sequences of chunks, short writes, progress reports, announced sizes and limits", "why_tests_cant": "must hold for every hostile server and chunking", "anchors": ["src/network.c: write_cb, xfer_cb, transfer, download_file"]}
{"id": "C76", "title": "no file name can smuggle commands into the shell started by `rauc convert`", "statement": "The command line given to sh for converting an archive makes a POSIX shell run exactly tar and, if that succeeds, casync, with the image, index, temporary directory, store and extra arguments each as a single argument, whatever characters they contain.", "quantifier": "all strings for names, store and extra arguments", "why_tests_cant": "quoting must hold for every string", "anchors": ["src/bundle.c: casync_make_arch, casync_make_blob"]}
{"id": "C77", "title": "Configuration and trust anchors in effect", "statement": "A rauc command runs with the configuration file named by --conf and no other one (never a fallback or defaults); without it, target commands use the first existing of /etc/rauc, /run/rauc and /usr/lib/rauc system.conf and fail if that is not valid, never skipping a broken file in favour of a later one; info and extract fall back to defaults only if no file can be read; bundle creation commands do not depend on the files of the system. -C is accepted exactly as SECTION:KEY=VALUE. Bundles are verified against exactly the keyring file given on the command line, else the configured one, plus the configured directory, with revocation, partial chain and purpose checks exactly as configured; with no keyring at all verification fails. A signing keyring is the only trust anchor for new signatures. check-purpose=codesign accepts exactly the certificates the documentation says.", "quantifier": "all commands, command lines, contents of the three configuration files, builds with and without service, certificates", "why_tests_cant": "tests use a handful of configuration files and certificates; the claim is about every combination of files, options and extension bits, in particular that no combination leads to weaker verification", "anchors": ["src/context.c:r_context_configure", "src/main.c:collect_config_values", "src/main.c:cmdline_handler", "src/signature.c:setup_x509_store", "src/signature.c:check_purpose_code_sign", "src/signature.c:cms_sign"]}
{"id": "C78", "title": "Links in /run/rauc point to the running system", "statement": "Whenever the system stops and whatever fails while the service starts, each link in /run/rauc/slots/active is as it was before or points to the device of a slot of that class that belongs to the running system (the booted slot or a slot with it as parent), and each link in /run/rauc/artifacts is as before or points to the directory of the repository; a link is never missing once it existed. If nothing fails, every class with a slot in the running system and every repository has its link, and nothing else changes.", "quantifier": "all slot tables, hash orders, repositories, contents of the directories, failures of system calls and crash points", "why_tests_cant": "every interleaving of failures and crash points and every slot table must be covered", "anchors": ["src/main.c:create_run_links", "src/utils.c:r_update_symlink", "src/install.c:determine_slot_states"]}
{"id": "C79", "title": "One boot event per boot", "statement": "With a central status file that can be written, exactly one boot event is logged for each boot, with the slot that was booted and the bundle recorded for it, in any history of service starts, restarts and saved slot status; if the file cannot be written, no boot is missed and only boots in which the service started are logged. The service never aborts in the detection.", "quantifier": "all histories of starts, restarts and saves of slot status, contents of the status file and configurations", "why_tests_cant": "the claim is about unbounded histories", "anchors": ["src/main.c:service_start", "src/main.c:r_event_log_booted", "src/status_file.c:r_system_status_save", "src/status_file.c:r_system_status_load"]}
{"id": "C80", "title": "Command line tools: exit status and verification options", "statement": "A command exits with 0 or 1. It exits with 0 only if help was asked for or the operation named by the command, with the files named on the command line, was carried out and everything it called succeeded; if it exits with 1, nothing was called or something failed. Signature, time and environment checks of the input bundle are relaxed exactly by the options given, each accepted only by the commands that document it; no operation on a bundle runs before its check succeeded, and without --no-verify the bundle is authentic. Bundles are created and re-signed only with certificate and key, encrypted only with recipients. A bundle is not created inside its own input directory.", "quantifier": "all build options, command lines, contents of the file system and results of the functions called", "why_tests_cant": "all combinations of commands, options and failures must be covered", "anchors": ["src/main.c:cmdline_handler", "src/main.c:bundle_start", "src/main.c:resign_start", "src/main.c:replace_signature_start", "src/main.c:extract_signature_start", "src/main.c:extract_start", "src/main.c:convert_start", "src/main.c:encrypt_start", "src/main.c:info_start", "src/main.c:mount_start"]}
{"id": "C81", "title": "write-slot writes only what an installation could", "statement": "'rauc write-slot NAME FILE' runs an update handler exactly if the file can be opened, its type is given by option or follows from its name and is supported, a slot NAME exists, is not read-only and accepts images of this type. Then it runs the handler an installation would choose, on this slot and this file only, and the exit status tells if it succeeded. No other command of the command line tools writes to a slot.", "quantifier": "all slot tables, files, options and results of the handler", "why_tests_cant": "all slot tables, file names and types must be covered", "anchors": ["src/main.c:write_slot_start", "src/update_handler.c:get_update_handler"]}
{"id": "C82", "title": "Events reach exactly the loggers that want them and can be read back", "statement": "For every history of log messages, each configured logger gets exactly the events of the types it is configured for, in order, whatever happens to other loggers; ordinary log messages are never written to event logs; every event has a type that can be selected. A json log file has one line per event, each a JSON object readable in one way only with time, type, message and all data of the event; json-pretty files are a sequence of such objects; readable and short log files can be split into the records of the events. The message ID tells which event it was.", "quantifier": "all logger configurations, histories of events, contents of messages, names and versions, and failures of other loggers", "why_tests_cant": "unbounded histories, all strings and all combinations of loggers and failures", "anchors": ["src/event_log.c:r_event_log_writer", "src/event_log.c:event_log_format_fields_json", "src/event_log.c:event_log_format_fields_readable", "src/install.c:log_event_installation_done", "src/mark.c:r_event_log_mark_active", "src/main.c:r_event_log_booted"]}
{"id": "C83", "title": "JSON output of info and status is unambiguous and complete", "statement": "'rauc info' and 'rauc status' with a JSON output format print one well-formed JSON document, whatever characters names, versions, descriptions, paths and metadata contain. It can be read in one way only, no object has two members of the same name, absent strings are null or missing as documented, and it contains the compatible, version, description, build, format, hooks, hash and every image of the manifest in order; respectively the compatible, variant, version, boot slot, primary, every slot of the service exactly once with its data, and all artifact repositories. Two bundles give the same info output exactly if they agree in what is shown. The key of an encrypted bundle is never shown.", "quantifier": "all manifests, all slot tables, slot statuses, repositories and strings in them", "why_tests_cant": "all strings (quotes, backslashes, control characters) and all combinations of absent values must be covered", "anchors": ["src/main.c:info_formatter_json_base", "src/main.c:info_formatter_json_2", "src/main.c:r_status_formatter_json", "src/main.c:r_status_formatter_readable", "src/slot.c:r_slot_get_root_classes"]}
{"id": "C84", "title": "The end of an installation is always noticed, after all its messages", "statement": "For every interleaving of the installation thread, the main loop and other callbacks: the status messages of an installation are logged each once and in order; `Completed` (without the service: the end of `rauc install`) comes exactly once, with the result of the installation, after all messages and after the final value of the property LastError was announced, and only then the service stops being busy; nothing is used after it was freed and no assertion fails; and every installation whose thread ends is completed as long as the main loop is run.", "quantifier": "every interleaving (finite prefix or infinite fair schedule), list of messages and progress steps, and result, in the service, from the poller and without the service", "why_tests_cant": "thread interleavings; a test sees one schedule", "anchors": ["src/install.c:install_thread", "src/install.c:install_done", "src/install.c:install_args_update", "src/service.c:service_install_notify", "src/service.c:service_install_cleanup", "src/polling.c:polling_install_cleanup", "src/main.c:install_notify", "src/main.c:install_cleanup", "src/main.c:install_start"]}
{"id": "C85", "title": "The poller tells the truth about itself", "statement": "At every moment since the service was started, the Status property of the Poller D-Bus interface states exactly what the history of polls implies: the number of polls, the number of failures since the last success, the times of the last attempt and the last success, the message of the last poll's error (absent if it succeeded), whether an update is available, the hash of the bundle last tried, and manifest, size, effective URL, modification time and ETag of the bundle the server offers (absent once the server says there is none); NextPoll is exactly the earliest time at which the poller acts again, and 0 after it triggered the reboot.", "quantifier": "every configuration, every sequence of timer ticks, server answers, D-Bus calls and finished installations", "why_tests_cant": "the fields are updated in different places (fetch, criteria check, dispatch, cleanup) and the claim is about all interleavings of polls, errors, unchanged answers, withdrawn bundles and installations", "anchors": ["src/polling.c: polling_update_status, polling_context_dispatch, polling_fetch, polling_context_clear_manifest, polling_reschedule, r_polling_setup, on_handle_poll, polling_install_cleanup"]}
{"id": "C86", "title": "The methods of the service answer once, do what they say, and are refused while an installation runs", "statement": "Every method call on the Installer D-Bus interface is answered exactly once, after everything it does. While an installation runs - started by a call, automatically or by the poller - every call is refused with an error, does nothing and changes nothing but the Operation property (reset by a refused request to install). A call starts an installation exactly if none runs and all options are documented and well typed, with exactly the given source and options. Install and Info are InstallBundle and InspectBundle without options. Mark reports success only for slots the boot loader was successfully told about. The Progress property is the last report of the running installation; what the poller believes about the booted slot is what the boot loader was last told about it.", "quantifier": "every history of calls, progress reports, automatic installations, polls and finished installations, every option dictionary, every behaviour of the boot loader", "why_tests_cant": "the claims are about all interleavings of calls with running installations and all dictionaries", "anchors": ["src/service.c: r_on_handle_install_bundle, r_on_handle_install, r_on_handle_inspect_bundle, r_on_handle_info, r_on_handle_mark, r_on_handle_get_slot_status, r_on_handle_get_artifact_status, r_on_handle_get_primary, auto_install, send_progress_callback", "src/mark.c: mark_run"]}
{"id": "C87", "title": "A streaming session leaves nothing behind and never waits for ever", "statement": "When RAUC has released a bundle it accessed by streaming, the helper process has ended and was waited for, RAUC's end of the socket was closed exactly once and the kernel has no NBD device of the session any more, whatever failed at any step; every session ends, RAUC never waits for a helper that was not told to end; while the mounted bundle is used, the helper runs and the device is connected; after `rauc mount`, or if RAUC is killed at any moment, device and helper do not outlive the mount; RAUC never disconnects the NBD device of another process.", "quantifier": "every combination of failing system calls, every moment at which RAUC is killed, the helper dies or the bundle is unmounted by someone else, every interleaving with other processes connecting and disconnecting NBD devices", "why_tests_cant": "the claim ranges over all failure combinations, kill points and interleavings of three parties (RAUC, kernel, helper); the failing paths need netlink or device faults tests cannot produce", "anchors": ["src/nbd.c: r_nbd_setup_device, r_nbd_remove_device, r_nbd_start_server, r_nbd_stop_server, r_nbd_free_device, r_nbd_free_server", "src/bundle.c: mount_bundle, umount_bundle, free_bundle", "src/main.c: mount_start"]}
{"id": "C88", "title": "RAUC mounts a slot only while it works on it, and the per-slot status survives", "statement": "RAUC never mounts a slot twice, and after each operation (status query, installation, activation) the slot is not mounted by RAUC any more, whatever else fails; if it could not be unmounted, no later operation of the process writes to it; a status query never writes; after an installation the slot's own status file has the status of its result, and the next process loads exactly that status; RAUC survives every sequence of operations.", "quantifier": "every sequence of queries, installations and activations with per-slot status files, every combination of failing mounts, writes and unmounts, every image and slot type, every previous content of the status file", "why_tests_cant": "mount state and memory state interact over a whole history of operations with arbitrary failures; the paths after a failed umount are not reachable in the test suite", "anchors": ["src/mount.c: r_mount_slot, r_umount_slot", "src/status_file.c: r_slot_status_load, r_slot_status_save, load_slot_status_locally, save_slot_status_locally", "src/install.c: handle_slot_install_plan", "src/mark.c: r_mark_active"]}
{"id": "C89", "title": "The artifact status of the service is true, and asking for it is safe", "statement": "As long as the directory of an artifact repository can be opened, the service survives every history of installations - which may succeed or fail at any system call - and GetArtifactStatus queries, and every query is answered. Before the first installation and after every successful one, whatever happened before, the answer is what is in the directory: exactly the stored artifacts are listed, every artifact a link points to is reported as in use, and nothing else is (except through a temporary link an interrupted run left behind). As shipped this is violated otherwise: if the directory cannot be opened during an installation, the next query uses freed memory and the next installation frees it a second time; after a failed installation the answer can list an artifact whose data was never copied, or report one as active whose link was never made.", "quantifier": "every reachable content of the repository, every interleaved history of installations (with any failures and any images) and queries, every outcome of every system call", "why_tests_cant": "The table is a cache that is changed before the system calls it mirrors; whether it agrees with the disk depends on the whole history of failures, and the use of freed memory only shows after a particular failure followed by a query.", "anchors": ["src/artifacts.c:r_artifact_repo_prepare", "src/artifacts.c:r_artifacts_init", "src/artifacts.c:r_artifacts_to_dict", "src/artifacts.c:r_artifact_repo_prune", "src/service.c:r_on_handle_get_artifact_status", "src/install.c:handle_artifact_install_plan"]}
{"id": "C90", "title": "A program that gets an image on its standard input gets exactly the image", "statement": "When an archive is unpacked with tar, or an image is written with nandwrite, and the step is reported as successful, then the program was started with the documented arguments (for tar: the decompressor that belongs to the ending of the file name), got exactly the bytes of the image followed by the end of its input, and exited with status 0. Whatever fails, what it got is a beginning of the image, and it sees the end of its input only after the whole image. The reported percentages never go back, never exceed 100 and end at 100 on success. As shipped an empty image crashes the installing process (division by the file size), and when the image cannot be read to its end the program is left behind: it never sees the end of its input and is not waited for.", "quantifier": "every image, every way the kernel splits the transfer, every failing call, every exit status, every file name", "why_tests_cant": "The transfer can be split and fail in unboundedly many ways; tests use small complete images that are moved in one piece.", "anchors": ["src/update_handler.c:splice_with_progress", "src/update_handler.c:splice_file_to_outstream", "src/update_handler.c:splice_file_to_process_stdin", "src/update_handler.c:untar_image", "src/update_handler.c:nand_write_slot", "src/update_handler.c:suffix_to_tar_flag"]}
{"id": "C91", "title": "An artifact appears in its repository only with all of its data, and durably", "statement": "While the data of an artifact is installed, at every moment - in particular at a power failure, and whatever failed before - if the artifact has its final name, its data is complete and on stable storage: for a files repository the content of the image file, for trees the copy of the tree from tar-extract if there is one, else the unpacked kept archive, else the unpacked image, for composefs the result for the converted image. When the installation of the data succeeds, the final name is on stable storage too; it does succeed if no call and no program fails. As shipped the announced size and the digest are not checked against the image: announced size 0 installs an empty file whatever the image contains, and an image shorter than announced is installed as a success.", "quantifier": "every repository type, image, list of conversions, splitting of reads and writes, set of failing calls, and every moment of a power failure", "why_tests_cant": "Crash points and failing calls are unboundedly many, and tests do not lose power.", "anchors": ["src/artifacts.c:r_artifact_install", "src/artifacts.c:files_artifact_install", "src/artifacts.c:tree_artifact_install_tar", "src/artifacts.c:r_tree_artifact_install_extracted", "src/artifacts.c:artifact_get_converted", "src/update_utils.c:r_copy_stream_with_progress"]}
{"id": "C92", "title": "Slots in use by somebody else are not overwritten and are shown as mounted", "statement": "An installation writes to a slot only if RAUC does not have it mounted itself and nothing in the system's mount table has the slot's device as its source (directly, or through a loop device set up with the slot's file), unless the configuration allows mounted slots and the image has its own install hook; if one of the slots to be installed is in use, nothing at all is touched (no other slot, no artifact, no boot loader mark) and the installation fails. GetSlotStatus shows for every slot RAUC's own mount point or else the first one in the mount table, and the boot state of each boot slot; it fails only if the file behind a mounted loop device cannot be determined.", "quantifier": "every mount table, every set of slots with different devices, every bundle, every behaviour of the other steps of an installation", "why_tests_cant": "mount tables are unbounded lists of arbitrary strings written by other programs; tests would have to mount file systems", "anchors": ["src/install.c:resolve_loop_device", "src/install.c:update_external_mount_points", "src/install.c:pre_install_check_slot_mount_status", "src/install.c:pre_install_checks", "src/install.c:determine_boot_states", "src/service.c:create_slotstatus_array", "src/slot.c:r_slot_find_by_device"]}
{"id": "C93", "title": "Removing a tree removes exactly this tree, and files in use are found", "statement": "Removing a directory tree (obsolete artifacts, temporary directories) never creates anything and never removes anything outside of the tree, also if the tree contains symbolic links or if the removal fails half-way; if it reports success nothing of the tree is left; and it succeeds for every readable tree without foreign mounts which the kernel allows to remove. The check for files in use reports a tree as unused exactly if all directories are readable and all files in it are regular, can be opened and are not open in another process, as in use only if a file in it is open, and it fails only because of special files, files which cannot be opened or directories which cannot be read.", "quantifier": "all trees of any depth, all symbolic links, mounts, permissions, open files and surrounding file systems", "why_tests_cant": "tests remove and check small trees of regular files; trees are unbounded and the effect on everything outside of the tree has to be quantified over every file system", "anchors": ["src/utils.c:rm_tree", "src/utils.c:rm_tree_cb", "src/utils.c:r_tree_check_open", "src/utils.c:tree_check_open_cb"]}
{"id": "C94", "title": "Programs get exactly the arguments that are meant for them", "statement": "Texts with arguments (the manifest's handler args, --handler-args, the reboot command, extra-mkfs-opts, casync install-args, --mksquashfs-args) are split into words as a shell would, without any expansion; every argument list can be written that way; the custom handler gets the words of the manifest followed by those of --handler-args; if a text cannot be split nothing is run. Read by the usual rules for options (getopt_long), the command lines of mkfs.ext4, mkfs.vfat, mkfs.ubifs, resize2fs, flashcp, flash_erase, nandwrite, tar, mount, umount, casync, desync, fakeroot and mksquashfs mean what is intended whatever slots, devices, labels, mount options and images are called: the only operands are the slot's device (and the image, directory or mount point), names can never be taken for options, and additional options are taken over completely.", "quantifier": "all texts, all names of slots, devices, files and directories, all additional options", "why_tests_cant": "names and texts are unbounded; a test shows the command line for a few names, not that no name can be taken for an option or get lost", "anchors": ["src/install.c:launch_and_wait_custom_handler", "src/install.c:launch_and_wait_handler", "src/polling.c:polling_reboot", "src/update_handler.c:ext4_format_slot", "src/update_handler.c:vfat_format_slot", "src/update_handler.c:ubifs_format_slot", "src/update_handler.c:ext4_resize_slot", "src/update_handler.c:nor_write_slot", "src/update_handler.c:flash_format_slot", "src/update_handler.c:nand_write_slot", "src/update_handler.c:untar_image", "src/update_handler.c:casync_extract", "src/mount.c:r_mount_full", "src/mount.c:r_umount", "src/bundle.c:mksquashfs", "src/utils.c:r_fakeroot_add_args"]}
{"id": "C95", "title": "The service process ends only when it should, with a true exit status", "statement": "If the service cannot be set up, it exits with status 1 without ever having asked for its bus name. Otherwise it runs until it handles a SIGTERM or loses its bus name; then it handles nothing more and exits, with status 0 exactly if it was told to stop and still had its name. A file configured for automatic installation is installed exactly if it is there and no installation is running when the name is acquired. When the service stops while no installation is running, nothing that was freed is used.", "quantifier": "every schedule of main loop iterations (with any batches of callbacks), steps of the main thread after the loop and of the installation thread, and kills", "why_tests_cant": "the end of the loop races with the installation thread and with other callbacks of the same iteration", "anchors": ["src/service.c:r_service_run", "src/service.c:r_on_name_lost", "src/service.c:r_on_signal", "src/service.c:auto_install", "src/polling.c:r_polling_setup", "src/main.c:service_start", "src/main.c:main", "src/context.c:r_context_clean"]}
{"id": "C96", "title": "The readable output of rauc info can be trusted", "statement": "The readable output of rauc info shows each field of the bundle exactly once on the line with its label, the meta data group by group, and one section per image in order, with every field as it is; bundles with the same output agree in everything shown. Whatever the manifest contains, the last line says whether the signature was verified, and the key of an encrypted bundle is never shown.", "quantifier": "every manifest (the verdict on the signature and the key: without any restriction), every certificate chain, every rendering of sizes", "why_tests_cant": "all strings in all fields, including ones that imitate the output", "anchors": ["src/main.c:info_formatter_readable", "src/main.c:info_start", "src/signature.c:format_cert_chain"]}
{"id": "C97", "title": "Readable output of rauc status shows every slot once with its recorded values", "statement": "The readable output of `rauc status` (also with --detailed) names compatible, variant, version, the booted and the activated slot exactly once; after the line '=== Slot States ===' there is exactly one group of lines per slot of the service, which starts with the slot's name, device, type and state (marked as activated exactly if it is the activated one) and shows every further value (boot name, mount point, boot status, recorded bundle, checksum, times and counts of installation and activation, status) exactly once, under its label and heading, exactly as it is; artifact repositories can be read back completely with what is in use. Values that are not there are not shown.", "quantifier": "all states of the service (slots, statuses, repositories), with and without --detailed, with and without UTF-8, whose texts contain no line breaks or escape sequences", "why_tests_cant": "the output is one text made of arbitrary strings; that it can be read back unambiguously must hold for all values and all combinations of missing values", "anchors": ["src/main.c: r_status_formatter_readable, r_string_append_slot, r_string_append_repo", "src/slot.c: r_slot_get_root_classes, r_slot_get_all_of_class, r_slot_get_all_children, r_slot_get_booted"]}
{"id": "C98", "title": "What the author put into the bundle is what is on the slot", "statement": "When `rauc bundle` made a bundle from a directory and a device that trusts the signer installs it successfully, then each slot the installation is for holds the file that the author's manifest names for the slot's class: byte for byte at the beginning of the slot, or, for an archive, exactly its files in a file system of the slot's type. If the slot was not written because install-same=false and the recorded digest is the one of the image, a file with this digest is there since an earlier installation. At every moment of any history of installations (with any results, interrupted anywhere) a slot whose status file says ok with a digest holds a file with this digest that was installed into it.", "quantifier": "all author directories, manifests, formats, devices, slot configurations, previous states, results of every step, adaptive or plain copies, crash points and histories (for slots without boot-* types, images without install or post-install hook, without resizing and not in the formats of casync, whose file names differ from those that the creation itself writes, see C61; unless two different chunks have the same hash)", "why_tests_cant": "it joins bundle creation, signature check, planning, handlers, copying and status files over all inputs and interruptions", "anchors": ["src/bundle.c: create_bundle, check_bundle", "src/install.c: do_install_bundle, launch_and_wait_default_handler, handle_slot_install_plan", "src/update_handler.c: get_update_handler, img_to_raw_handler, archive_to_ext4_handler, copy_raw_image, copy_block_hash_index_image_to_dev", "src/slot.c: r_slot_status_save"]}
{"id": "C99", "title": "Statistics, durations and progress bars tell the truth", "statement": "The statistics of streaming and adaptive copying count and sum all values, show the least and the greatest one, the mean of all and the mean of the last 64. The text of a duration means exactly the duration, in days, hours, minutes and seconds. The progress line of `rauc install --progress` fits into the terminal for every percentage from 0 to 100, its bar grows with the percentage from the left and is full at 100 %, and the percentage can be read from it.", "quantifier": "all sequences of fewer than 2^64 values (without rounding), all numbers of seconds including negative ones, all terminal widths from 8 columns on and all percentages", "why_tests_cant": "the ring buffer must be right for every number of values modulo 64, and the texts for every number", "anchors": ["src/stats.c: r_stats_add, r_stats_get_avg, r_stats_get_recent_avg, r_stats_show", "src/utils.c: r_format_duration", "src/main.c: make_progress_line, on_installer_changed", "src/polling.c: polling_reschedule"]}
{"id": "C100", "title": "Whatever happens during an update, the device boots the unchanged old system or the complete new one", "statement": "A device whose system configuration was accepted, with the slot status in a shared file, runs from its primary root slot, recognised from the kernel command line. A bundle without a custom handler, whose manifest is honest about its files (C61) and whose images are written by the handlers of C98, with an image for another boot slot, is installed and the power fails at any moment, also in the middle of a write to a slot or to the boot loader's variables, or the installation comes to its end. Then the boot loader boots the old slot, and every slot of the running system holds, byte for byte, what it held before; or it boots the new slot, and every slot the bundle is for holds what the author of the bundle put into it (unless two 4096-byte blocks with the same SHA-256 are involved). After any number of such updates, each with an image for every slot below the new boot slot, the device boots a system none of whose slots is half written.", "quantifier": "all accepted configurations, kernel command lines, bundles, contents of slots and of the boot loader's variables, all crash points, all histories of updates; U-Boot, GRUB, barebox and EFI", "why_tests_cant": "a test interrupts one installation of one bundle on one configuration at one point; the claim joins configuration, slot selection, writing, verification and activation at every point", "anchors": ["src/config_file.c: parse_slots", "src/context.c: get_bootname", "src/install.c: determine_slot_states, determine_target_install_group, launch_and_wait_default_handler, do_install_bundle", "src/update_handler.c", "src/bootchooser.c: r_boot_set_state, r_boot_set_primary"]}
{"id": "C101", "title": "Whatever bundle is offered, only what a trusted author released is installed", "statement": "Suppose trusted keys have only signed manifests and payloads of certain releases. Somebody offers a bundle: a file with arbitrary content, or an HTTP server that answers anything, also different things at different times. If a device mounts it in order to install it, the manifest it goes by and every file it can read are those of one release. So if the installation succeeds, the slots it was for hold this release's images, and if the power fails at any moment the device boots the unchanged old system or a system in which all these slots hold what the release has for them. (Exceptions: a delivered block differs from one of the release but has the same SHA-256; the size of the payload, which is not signed, is such that the hash tree has another depth: then hash blocks are read as payload.)", "quantifier": "all bundle files and servers, all formats (plain, verity, crypt), all mounts, all releases, configurations, crash points", "why_tests_cant": "quantifies over all manipulations of a bundle, and over blocks that change while the bundle is mounted", "anchors": ["src/bundle.c: check_bundle, check_bundle_payload, mount_bundle, prepare_verity, prepare_crypt", "src/signature.c: cms_verify_bytes, cms_get_cert_chain", "src/verity_hash.c: r_verity_hash_verify", "src/install.c: do_install_bundle", "src/dm.c: r_dm_setup"]}
{"id": "C102", "title": "Only signers that the configured keyring vouches for are accepted", "statement": "Whatever files and options a device has been configured with: if content of a bundle is mounted for an installation, then the bundle has exactly one signer; the holder of this signer's key has signed the manifest (or the payload of a plain bundle); the signer's first common name is one of allowed-signer-cns (if set); and there is a path from the signer's certificate to a certificate in the keyring file (the one of --keyring, else the configured one) or directory, complete unless allow-partial-chain is set, without revoked certificates if check-crl is set, with all certificates fit for code signing if check-purpose=codesign is set, and valid at the time to which the signature testifies if use-bundle-signing-time is set, at the current time otherwise. With use-bundle-signing-time the clock of the device never matters. If all those who may sign for the device in this sense sign only releases, only releases are accepted, so that C101 applies.", "quantifier": "all configuration files, command lines, overrides, signatures, numbers of signers, signed attributes, clocks, certificate paths and behaviours of OpenSSL that are sound", "why_tests_cant": "quantifies over all configurations and all certificates; tests check a few combinations of options and certificates", "anchors": ["src/signature.c: setup_x509_store, cms_verify_bytes, cms_get_signingtime, cms_check_signer_cns, cms_get_cert_chain, check_purpose_code_sign", "src/bundle.c: check_bundle", "src/context.c: r_context_configure", "src/config_file.c: parse_keyring_section"]}
{"id": "C103", "title": "For its whole life a device boots only complete systems from the factory or from releases meant for it", "statement": "Anybody may offer bundles to a device, any number of times: files with any content, or servers that answer anything. Each attempt to install one may be refused, fail, succeed or be cut off by a power failure at any moment, also in the middle of a write to a slot or to the boot loader's variables; then the device restarts. Suppose those whose signatures the configured keyring makes the device accept (C102) have signed only releases, each with images for a whole system, true manifests and no custom handler, and nobody uses the options to ignore compatible or version limit. Then the boot loader always boots a root slot, and each slot of the booted system holds either exactly what it held in the factory or, byte for byte, the image that some release has for this slot's class and the device's variant, where the release's compatible is the device's (or an install-check hook of the release has accepted the device) and its version is not below min-bundle-version. (Exceptions as in C101: colliding SHA-256 blocks, or a payload size that was tampered with.)", "quantifier": "all sequences of offered bundles and server behaviours, all results of system calls, tools and handlers, all crash points in any number of installations, all accepted configurations with the usual slot arrangement, all supported boot loaders with tools as in C68", "why_tests_cant": "It quantifies over unbounded histories of malicious bundles and power failures, and depends on the interplay of nearly all parts of RAUC.", "anchors": ["src/install.c:do_install_bundle", "src/install.c:determine_target_install_group", "src/install.c:handle_slot_install_plan", "src/bundle.c:check_bundle", "src/bundle.c:mount_bundle", "src/signature.c:cms_verify_bytes", "src/context.c:r_context_configure", "src/bootchooser.c:r_boot_set_primary", "src/update_handler.c"]}
{"id": "C104", "title": "Signing and encrypting use exactly the keys and certificates that were named", "statement": "A signature is made (or appended) only with the key named by --key, from a file or, for names that begin with pkcs11:, from a token, and only if it belongs to the certificate named by --cert. It carries this certificate and one for each --intermediate, and no other; if one of them cannot be loaded there is no signature. If there is a keyring for signing (--signing-keyring, or the configured one), a signature is returned only if a device with this keyring and the same policy accepts it for this content now, and warnings name exactly the certificates of its chain that expire in the next 30 days. rauc encrypt encrypts for every certificate in every file named by --to and for nobody else, and fails if a file is missing, has no certificate or has a damaged section; a device that is configured with the key of one of the recipients accepts the encrypted bundle exactly as it accepts the original one. The hashes of public keys given to hooks and handlers determine the keys of the verified chain, in order.", "quantifier": "all files, tokens, environment variables, certificate lists and recipients, all contents, all behaviours of OpenSSL within its specification, all points in time", "why_tests_cant": "Tests use a handful of fixed keys; that no certificate is dropped or added, no recipient lost, and no signature returned that devices refuse must hold for every combination of files, tokens and options.", "anchors": ["src/signature.c:load_key", "src/signature.c:load_cert", "src/signature.c:load_certs_from_file", "src/signature.c:get_pkcs11_engine", "src/signature.c:cms_sign", "src/signature.c:cms_append_signature", "src/signature.c:cms_encrypt", "src/signature.c:cms_decrypt", "src/signature.c:get_pubkey_hash", "src/bundle.c:encrypt_bundle"]}
{"id": "C105", "title": "A release that the server offers is tried and booted in bounded time", "statement": "Whatever has happened before (installations, failed polls, refused requests, marks), the next poll of a running service is at most the configured maximum interval (at least 30 s) away. So if the service is idle with the booted slot marked good, the server offers a bundle that meets the configured criteria, this bundle is not the one tried last, and from then on nobody starts another installation, marks the slot bad, calls Poll or creates an inhibit file, then an installation of exactly this bundle starts at the latest at the first timer callback after that interval; and when it ends with a result for which a reboot is configured, the device is rebooted at the latest at the first timer callback more than 30 s after that. Not guaranteed (findings): repeated calls of Poll put off all polls and reboots for ever, and a failed attempt is not repeated as long as the server offers only that bundle.", "quantifier": "all configurations, all histories of D-Bus calls, timer callbacks, downloads and installation results before, all continuations without interference, all times", "why_tests_cant": "It is a liveness property with a time bound: a history that loses the timer (or schedules it too late) may be arbitrarily long, and tests can only wait for a few polls.", "anchors": ["src/polling.c:polling_context_dispatch", "src/polling.c:polling_reschedule", "src/polling.c:polling_step", "src/polling.c:polling_install_cleanup", "src/polling.c:on_handle_poll", "src/service.c:r_on_handle_mark", "src/install.c:install_done"]}
{"id": "C106", "title": "An update that suits the device is installed, and no other", "statement": "If no operation fails on the device (mounting, writing, saving the status, hooks, handlers, the boot loader), an installation succeeds if and only if the bundle suits it: the pinned manifest hash is that of its signed manifest, a crypt bundle was encrypted, it has an install-check hook, the compatible is the device's or is ignored, its version reaches the configured minimum or this is ignored, and either it has its own handler or everything in it has its place: at least one image; for every slot class an image of the right variant whose data is in the bundle and a target that is writable, present, not mounted (unless allowed and installed by a hook) and of a type that can hold the image; for every artifact a configured and existing repository; and at most one target that the boot loader can start. When it has succeeded, every slot class has its image (written to the end, unless the slot held it already), every artifact is in its repository, the boot loader was told to start the updated boot slot, and the bundle is unmounted.", "quantifier": "all worlds without failing operations, all accepted configurations, slot tables, arguments, bundles and manifests read from a file", "why_tests_cant": "It is completeness together with soundness: a wrongly refused update is only noticed by the combination of manifest, configuration and device state that triggers it.", "anchors": ["src/install.c:do_install_bundle", "src/install.c:launch_and_wait_default_handler", "src/install.c:pre_install_checks", "src/install.c:r_install_make_plans", "src/install.c:get_boot_mark_slot", "src/install.c:verify_compatible", "src/install.c:check_version_limits", "src/bundle.c:mount_bundle"]}
{"id": "C107", "title": "A redundant device can always be updated, from either side", "statement": "On a device with two or more systems (root slots of one class, each with its own slots of the other classes), whichever of them is running and whatever is recorded in the slot status about earlier installations: a bundle that is made for the device, i.e. has images only for classes that every system has, each of which fits every slot of its class outside of the running system, always finds its place; no image goes to a slot of the running system; if nothing fails the installation succeeds, every class has its image in a slot outside of the running system, and the boot loader then starts another system of the device than the one that was running, from which the same is possible again.", "quantifier": "all slot tables with redundant systems, all running systems, all contents of the slot status (shared or per slot), all bundles, manifests and arguments", "why_tests_cant": "A test updates once or twice; that no history of updates and status data locks a device out of further updates quantifies over all of them.", "anchors": ["src/install.c:determine_slot_states", "src/install.c:select_inactive_slot_class_member", "src/install.c:determine_target_install_group", "src/install.c:r_install_make_plans", "src/install.c:pre_install_checks", "src/install.c:do_install_bundle", "src/slot.c:r_slot_get_parent_root"]}
{"id": "C108", "title": "A release that the server offers ends up running on a redundant device", "statement": "A redundant device polls a server that offers a release which its criteria accept, that it has not tried yet and that is made for the device; a reboot after updated slots is configured. Then within the longest poll interval the installation of exactly this release (bound to its manifest hash) is started; if nothing fails in it, it is reported as successful, the device is rebooted, and the boot loader then starts another system than the one that was running, which holds the image of the release.", "quantifier": "all histories of events of the service before and during the installation that do not interfere, all slot tables with redundant systems, all contents of the slot status, all bundles made for the device, all boot loader backends with atomic variable updates", "why_tests_cant": "It joins the poller, the choice of the slots, the installation and the boot loader over all schedules, states and histories; tests cover each part with a few inputs.", "anchors": ["src/polling.c:polling_step", "src/polling.c:polling_install_cleanup", "src/polling.c:polling_check_reboot_criteria", "src/install.c:do_install_bundle", "src/install.c:install_thread", "src/mark.c:r_mark_active"]}
{"id": "C109", "title": "Whichever slot the boot loader falls back to, it holds a complete system", "statement": "In the beginning every bootable slot group is complete or marked bad. Afterwards, whatever happens to the device (switched off or restarted at any moment; the boot loader counts attempts and starts a slot, its first choice or another one when that is used up; the running system is marked good or bad, other slots bad, good or primary ones good or active; installations are started, fail, are interrupted anywhere, and follow each other with or without a restart), the running system is complete, and so is every slot group that the boot loader may start or that RAUC calls good or primary: neither the slot nor one of its children is half written.", "quantifier": "all histories of starts, marks and installations, all interruption points (also within an update of the boot loader's variables), all reads of boot loader data that fail, all slot tables accepted by the configuration; for U-Boot (with contrib/uboot.sh), GRUB and barebox any content of the boot loader's data", "why_tests_cant": "A half-written slot must not become bootable after any sequence of installations, marks, failed boots and power losses; tests run a few sequences without a boot loader.", "anchors": ["src/install.c:launch_and_wait_default_handler", "src/bootchooser.c:r_boot_set_state", "src/bootchooser.c:r_boot_set_primary", "src/bootchooser.c:r_boot_get_primary", "src/bootloaders/uboot.c", "src/bootloaders/grub.c", "src/bootloaders/barebox.c", "src/bootloaders/efi.c", "src/mark.c:mark_run", "contrib/uboot.sh", "contrib/grub.conf"]}
{"id": "C110", "title": "Whatever the boot loader falls back to, its bytes are from the factory or from releases for the device", "statement": "Anybody may offer bundles to a device at any time; installations fail, are interrupted anywhere and follow each other with or without a restart; slots are marked good, bad and active; the boot loader counts attempts and falls back. If those whose signatures the device accepts sign only releases, then every slot of the running system, of every system that the boot loader may boot, and of every system that RAUC calls good or primary holds what it held in the factory or, byte for byte, an image of a release for this device - unless SHA-256 is broken or a payload had the wrong size.", "quantifier": "all histories of starts, marks and installation attempts, all interruption points, all bundle files, servers and storage contents, all configurations accepted by the parser, all boot loaders that neither boot slots marked bad nor revive them (shown for GRUB, barebox, and U-Boot with contrib/uboot.sh while it finds a slot)", "why_tests_cant": "It joins signature checks, hashes, the choice of slots, writing, marks and the boot loader's counting over all histories and crash points.", "anchors": ["src/bundle.c:check_bundle", "src/install.c:do_install_bundle", "src/install.c:launch_and_wait_default_handler", "src/update_handler.c:get_update_handler", "src/bootchooser.c:r_boot_set_state", "src/bootloaders/uboot.c", "src/bootloaders/grub.c", "src/bootloaders/barebox.c", "src/mark.c", "contrib/uboot.sh", "contrib/grub.conf"]}
{"id": "C111", "title": "The slot that RAUC calls primary is the one the boot loader's script starts next", "statement": "As long as the boot loader's variables are there and can be read, the slot that `rauc status` reports as activated (primary) is exactly the slot that contrib/uboot.sh or contrib/grub.conf starts at the next reboot; and if RAUC finds no primary slot, the script finds none.", "quantifier": "all contents of the variables (orders with unknown or repeated names, any numbers), all slot configurations whose boot names the script knows", "why_tests_cant": "Two programs in two languages read the same variables; agreement must hold for every content, also contents that only arise after crashes or by hand.", "anchors": ["src/bootloaders/uboot.c:r_uboot_get_primary", "src/bootloaders/grub.c:r_grub_get_primary", "contrib/uboot.sh", "contrib/grub.conf"]}
{"id": "C112", "title": "A system that does not confirm itself is abandoned after its attempts", "statement": "If the booted system never marks itself good, the script boots it exactly as often as it has attempts left (U-Boot: the counter; after mark-active, the configured number; GRUB: once), and then boots the first other slot in the order that may still be booted - no boot loop, and no early abandonment.", "quantifier": "all contents of the variables, all numbers of attempts up to 64 bit, all orders and slot configurations", "why_tests_cant": "It ranges over all numbers of reboots and all counters, in the hexadecimal notation that RAUC writes and the script decrements.", "anchors": ["contrib/uboot.sh", "contrib/grub.conf", "src/bootloaders/uboot.c:r_uboot_set_primary", "src/bootloaders/grub.c:r_grub_set_primary"]}
{"id": "C113", "title": "The boot loader's scripts have no dead end", "statement": "Whatever the boot loader's variables contain: if the script starts no system (all attempts used, all tried, nothing set), the next start boots the first slot of the order that the script knows (U-Boot), or the first one that is marked ok, if there is one (GRUB). A device is never without a system for more than one start because attempts ran out.", "quantifier": "all contents of the variables, also missing and empty ones, all orders with unknown and repeated names, all sets of slots", "why_tests_cant": "It must hold for every content of the variables after any history of attempts, marks and crashes.", "anchors": ["contrib/uboot.sh", "contrib/grub.conf"]}
{"id": "C114", "title": "A system that confirms itself is booted every time", "statement": "A system that the boot loader started and that is marked good again before its attempts are used up is started at every following reboot; the boot loader never moves to another slot on its own. (U-Boot: at least one mark-good within each boot-attempts starts; GRUB: after each start.)", "quantifier": "all histories of starts with and without confirmation, of any length, all contents of the boot loader's variables, all configured numbers of attempts", "why_tests_cant": "It ranges over unboundedly many reboots and all patterns of confirmation.", "anchors": ["src/bootloaders/uboot.c:r_uboot_set_state", "src/bootloaders/grub.c:r_grub_set_state", "contrib/uboot.sh", "contrib/grub.conf"]}
{"id": "C115", "title": "An update that does not confirm itself ends in the system before it", "statement": "While a slot is being updated (marked bad at the start) the boot loader keeps starting the system that ran before. After the activation the new system is started as often as configured, and if it never confirms itself, the device returns to exactly the system that ran before the update - not to a third one.", "quantifier": "all contents of the boot loader's variables, all slot configurations and numbers of systems, all configured numbers of attempts", "why_tests_cant": "It composes mark-bad, mark-active and an arbitrary number of starts of the boot loader's script over all contents of the order and counters.", "anchors": ["src/install.c:launch_and_wait_default_handler", "src/bootloaders/uboot.c:r_uboot_set_state", "src/bootloaders/uboot.c:r_uboot_set_primary", "src/bootloaders/grub.c:r_grub_set_primary", "src/bootchooser.c:r_bootchooser_order_primary", "contrib/uboot.sh", "contrib/grub.conf"]}
