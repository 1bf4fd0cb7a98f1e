{
 "claims": [
  {
   "property": "C01",
   "status": "partial",
   "theorems": [
    "Rauc.Boot.C01_uboot",
    "Rauc.Boot.C01_grub",
    "Rauc.Boot.C01_barebox",
    "Rauc.Boot.C01_efi_partial",
    "Rauc.Boot.C01_efi_violated_bootnext",
    "Rauc.Boot.C01_efi_violated_duplicate"
   ],
   "note": "Full for U-Boot, GRUB, barebox. EFI: proved when the name occurs at most once in BootOrder and BootNext does not name the slot; outside of that the code violates the property (witnesses proved)."
  },
  {
   "property": "C02",
   "status": "partial",
   "theorems": [
    "Rauc.Boot.C02_uboot",
    "Rauc.Boot.C02_grub",
    "Rauc.Boot.C02_barebox",
    "Rauc.Boot.C02_efi_partial",
    "Rauc.Boot.C02_efi_violated"
   ],
   "note": "Full for U-Boot, GRUB, barebox. EFI: see the restriction of C02_efi_partial; the code violates the property outside of it (witness proved)."
  },
  {
   "property": "C03",
   "status": "proved",
   "theorems": [
    "Rauc.Boot.C03_barebox",
    "Rauc.Boot.C03_grub",
    "Rauc.Boot.C03_uboot",
    "Rauc.Boot.C03_efi"
   ],
   "note": "Every prefix of transactions; a transaction (one tool call) is atomic."
  },
  {
   "property": "C04",
   "status": "partial",
   "theorems": [
    "Rauc.Boot.C04_efi",
    "Rauc.Boot.C04_barebox_partial",
    "Rauc.Boot.C04_barebox_violated",
    "Rauc.Boot.C04_uboot_partial",
    "Rauc.Boot.C04_uboot_violated",
    "Rauc.Boot.C04_grub_partial",
    "Rauc.Boot.C04_grub_violated",
    "Rauc.Boot.C04_grub_kept"
   ],
   "note": "Full for EFI. On barebox/U-Boot/GRUB mark-good does not restore priority/order: proved when the slot is still listed; violated otherwise (witnesses proved)."
  },
  {
   "property": "C05",
   "status": "partial",
   "theorems": [
    "Rauc.Boot.C05_barebox",
    "Rauc.Boot.C05_efi",
    "Rauc.Boot.C05_grub_partial",
    "Rauc.Boot.C05_grub_violated",
    "Rauc.Boot.C05_uboot_partial",
    "Rauc.Boot.C05_uboot_violated"
   ],
   "note": "Full for barebox and EFI. GRUB/U-Boot: activation may list unlisted slots again (witnesses proved), proved otherwise."
  },
  {
   "property": "C06",
   "status": "proved",
   "theorems": [
    "Rauc.Mark.C06_only_denoted_slots",
    "Rauc.Mark.C06_by_name",
    "Rauc.Mark.C06_at_most_one",
    "Rauc.Mark.C06_success_is_true"
   ],
   "note": "Boot loader as an oracle of outcomes."
  },
  {
   "property": "C07",
   "status": "proved",
   "theorems": [
    "Rauc.Mark.C07_success",
    "Rauc.Mark.C07_never_booted",
    "Rauc.Mark.C07_off",
    "Rauc.Mark.C07_single_slot"
   ],
   "note": "C07_single_slot records a finding: error reported although the slot was marked good."
  },
  {
   "property": "C08",
   "status": "proved",
   "theorems": [
    "Rauc.Mark.C08_failure",
    "Rauc.Mark.C08_success"
   ],
   "note": "Counter below 2^32-1 (32 bit counter wraps)."
  },
  {
   "property": "C09",
   "status": "partial",
   "theorems": [
    "Rauc.Select.C09_partial",
    "Rauc.Select.C09_selected_not_booted",
    "Rauc.Select.C09_unknown_refused",
    "Rauc.Select.C09_violated"
   ],
   "note": "Proved when the booted slot is a root slot. Violated otherwise: a booted child slot (found by device or slot name) leaves its parent group selectable."
  },
  {
   "property": "C10",
   "status": "proved",
   "theorems": [
    "Rauc.Select.C10_consistent",
    "Rauc.Select.C10_one_group",
    "Rauc.Select.C10_complete"
   ],
   "note": ""
  },
  {
   "property": "C100",
   "status": "proved",
   "theorems": [
    "Rauc.WholeUpdate.C100_update",
    "Rauc.WholeUpdate.C100_life"
   ],
   "note": "One update (C100_update) and histories (C100_life), for every crash point; composition of C23, C56, C09/C12, C68 and C98. Boot loaders through System.Atomic, proved for U-Boot, GRUB, barebox (any variables) and EFI (under EfiReady). Two chunks that occurred in images or on slots and have the same SHA-256 (EndToEnd.Clash) are the explicit third alternative; successful external programs are trusted."
  },
  {
   "property": "C101",
   "status": "proved",
   "theorems": [
    "Rauc.Authenticity.C101_read",
    "Rauc.Authenticity.C101_bundle",
    "Rauc.Authenticity.C101_install",
    "Rauc.Authenticity.C101_boot",
    "Rauc.Authenticity.C101_published",
    "Rauc.Authenticity.C101_finding_size",
    "Rauc.Authenticity.C101_finding_hash_blocks"
   ],
   "note": "Composition of C33, C31, C47, C12, C98 and C100 with a specification of dm-verity and dm-crypt that leaves the blocks below arbitrary. Explicit alternatives: a delivered block with the hash of a different block of the release (Broken), a device whose hash tree has another depth than the release's (OtherDepth; RAUC takes the size from the unsigned end of the file, C101_finding_size), two chunks with the same hash in the block hash index (Clash). C101_boot assumes that files of the images can be read and that releases are honest (C61)."
  },
  {
   "property": "C102",
   "status": "proved",
   "theorems": [
    "Rauc.Trust.C102_signature",
    "Rauc.Trust.C102_signer",
    "Rauc.Trust.C102_install",
    "Rauc.Trust.C102_keyring",
    "Rauc.Trust.C102_releases",
    "Rauc.Trust.C102_clock"
   ],
   "note": "C102_signature: exactly which signatures are accepted, in terms of what OpenSSL is asked (store, time, signature); C102_signer/C102_install: assuming that OpenSSL accepts only with a path to a trust anchor (structure Sound), the path is the one of the configuration; C102_keyring: without a keyring nothing is accepted, without that assumption; C102_releases discharges the hypothesis OnlyReleases of C101; C102_clock: independence of the clock. OpenSSL's CMS_verify and X509_verify_cert are arbitrary functions, ASN1_TIME_to_tm/timegm are their results."
  },
  {
   "property": "C103",
   "status": "proved",
   "theorems": [
    "Rauc.LifeLong.C103_life",
    "Rauc.LifeLong.C103_configured"
   ],
   "note": "Joins C101, C102, C100/C68, C16, C22, C10, C12. Assumptions are in the structures Site, Layout, Attempt, Careful and in the boot loader conditions of C68 (none for U-Boot, GRUB and barebox). The finding C101_finding_size is the reason for the exception OtherDepth."
  },
  {
   "property": "C104",
   "status": "proved",
   "theorems": [
    "Rauc.Keys.C104_sign",
    "Rauc.Keys.C104_checked",
    "Rauc.Keys.C104_unchecked",
    "Rauc.Keys.C104_append",
    "Rauc.Keys.C104_encrypt",
    "Rauc.Keys.C104_encrypt_fails",
    "Rauc.Keys.C104_decrypt",
    "Rauc.Keys.C104_device",
    "Rauc.Keys.C104_spki",
    "Rauc.Keys.C104_spki_unique",
    "Rauc.Keys.C104_finding_chain_file"
   ],
   "note": "OpenSSL's functions on keys, certificates and CMS structures are arbitrary functions with the laws in LibOk. Finding: of a file with several certificates only the first one is used for --cert and --intermediate, silently."
  },
  {
   "property": "C105",
   "status": "proved",
   "theorems": [
    "Rauc.Daemon.C105_due",
    "Rauc.Daemon.C105_attempt",
    "Rauc.Daemon.C105_rollout",
    "Rauc.Daemon.C105_finding_starved",
    "Rauc.Daemon.C105_finding_no_retry"
   ],
   "note": "the main loop is assumed to call the poller's dispatch function at some time after its ready time (hypothesis FiresAfter); findings: Poll called every 20 s prevents all polls for ever, a failed attempt is not repeated"
  },
  {
   "property": "C106",
   "status": "proved",
   "theorems": [
    "Rauc.Install.C106_succeeds_iff",
    "Rauc.Install.C106_disjoint",
    "Rauc.Install.C106_done"
   ],
   "note": "the events of Model/Install; C106_done says what was done for manifests without two images for the same class and variant (every manifest that is read from a file and has its place: unambiguous_of_fits); which group is the target is C10/C11/C107"
  },
  {
   "property": "C107",
   "status": "proved",
   "theorems": [
    "Rauc.Redundant.C107_place",
    "Rauc.Redundant.C107_installed",
    "Rauc.Redundant.C107_next",
    "Rauc.LifeLong.C107_always"
   ],
   "note": "the running slot is a root slot (C09: false for booted child slots); the manifest is one read from a file (no hypothesis that images are unambiguous); C107_next for every boot loader backend with the laws System.Atomic (U-Boot, GRUB, barebox; EFI under its restriction), shared status file; C107_always: after any history of C103 (arbitrary offered bundles, power failures at any moment), under the assumptions of C103"
  },
  {
   "property": "C108",
   "status": "proved",
   "theorems": [
    "Rauc.Redundant.C108_release"
   ],
   "note": "composition of C105 (poller), C54_updated, C107 and C68; the main loop is assumed to call the poller within bounded time (FiresAfter), the link between both models is the hypothesis that the finished installation is the one that was started (same manifest hash, its status and flags)"
  },
  {
   "property": "C109",
   "status": "partial",
   "theorems": [
    "Rauc.System.C109_fallback",
    "Rauc.System.C109_uboot_partial",
    "Rauc.System.C109_grub",
    "Rauc.System.C109_grub_script",
    "Rauc.System.C109_barebox",
    "Rauc.System.C109_efi_partial",
    "Rauc.System.C109_uboot_reset_violated"
   ],
   "note": "Proved for all boot loaders that neither boot slots marked bad nor revive them (Fair) and backends that mark as in C01 (Marked); from it for GRUB (contrib/grub.conf) and barebox with any content of their data, for U-Boot with the modelled script contrib/uboot.sh as long as it finds a slot, and for EFI under the condition of C68 on the data (EfiReady). Hypotheses on installations (Aimed): shared status file, default handler, the bundle has images for all slots of the target group and of no other group; for other bundles the claim is false (C68_partial_bundle_violated, C68_child_only_violated). Finding: after an interrupted installation and mark-bad of the only good slot, uboot.sh gives all slots new attempts and boots the half-written one (C109_uboot_reset_violated). C109_grub_script: the same with contrib/grub.conf run as a program (grubSh)."
  },
  {
   "property": "C11",
   "status": "proved",
   "theorems": [
    "Rauc.Select.C11_selected_iff",
    "Rauc.Select.C11_selected_is_candidate",
    "Rauc.Select.C11_urgent_first",
    "Rauc.Select.C11_oldest",
    "Rauc.Select.C11_per_slot"
   ],
   "note": ""
  },
  {
   "property": "C110",
   "status": "proved",
   "theorems": [
    "Rauc.LifeLong.C110_fallback",
    "Rauc.LifeLong.C110_configured"
   ],
   "note": "For every backend and boot loader with Marked and Fair; these are proved for GRUB, barebox and (as long as the script finds a slot) U-Boot and EFI in C109, see its note for the finding on uboot.sh. Hypotheses on releases (Careful, OnlySystem): images for the whole system and for no other bootable slots, no custom handler; the exceptions in the conclusion are those of C101/C103 (hash collisions, wrong payload sizes)."
  },
  {
   "property": "C111",
   "status": "proved",
   "theorems": [
    "Rauc.Boot.C111_uboot",
    "Rauc.Boot.C111_grub",
    "Rauc.Boot.C111_uboot_any",
    "Rauc.Boot.C111_grub_any",
    "Rauc.Boot.C111_grub_only_ok"
   ],
   "note": "For U-Boot and GRUB with the example scripts in contrib (the scripts of barebox and the EFI firmware are not in /repo). ForSlots: the script is made for the boot names of the configuration; UbComplete/GrComplete: the variables exist and can be read. The _any theorems need neither: whenever RAUC names a primary slot, with any variables missing and any reads failing, the script boots that slot (U-Boot: no empty variables, which fw_setenv deletes). C111_grub_only_ok: GRUB's script boots only slots marked ok. Numbers with trailing white space are simplified in the script's model."
  },
  {
   "property": "C112",
   "status": "proved",
   "theorems": [
    "Rauc.Boot.C112_uboot",
    "Rauc.Boot.C112_grub",
    "Rauc.Boot.C112_uboot_activated",
    "Rauc.Boot.C112_grub_activated"
   ],
   "note": "For U-Boot and GRUB with the example scripts in contrib (barebox and EFI firmware are not in /repo). By induction over the number of starts; the variables exist and can be read (UbComplete; for GRUB needed only after mark-active)."
  },
  {
   "property": "C113",
   "status": "proved",
   "theorems": [
    "Rauc.Boot.C113_uboot",
    "Rauc.Boot.C113_grub"
   ],
   "note": "For the example scripts in contrib, no hypotheses on the variables (U-Boot: the script's default order is not empty). If the list is empty of known (GRUB: ok) slots the right-hand side is none: then only mark-active or mark-good from elsewhere helps. That U-Boot's reset also revives a half-written slot is the finding of C109."
  },
  {
   "property": "C114",
   "status": "proved",
   "theorems": [
    "Rauc.Boot.C114_uboot",
    "Rauc.Boot.C114_grub"
   ],
   "note": "For U-Boot and GRUB with the example scripts in contrib (barebox and EFI firmware are not in /repo). Confirmations are complete (an interrupted one is a start without); nothing else changes the variables meanwhile. U-Boot: every prefix of the history leaves an attempt."
  },
  {
   "property": "C115",
   "status": "partial",
   "theorems": [
    "Rauc.Boot.C115_uboot",
    "Rauc.Boot.C115_grub_partial",
    "Rauc.Boot.C115_grub_three_violated"
   ],
   "note": "U-Boot: proved for any number of systems. GRUB: proved for two systems; for three it is false (C115_grub_three_violated): mark-active rewrites ORDER from the slot table and forgets the old order. Missing: barebox and EFI (their firmware is not in /repo). Reads and writes of the variables succeed (crashes: C03)."
  },
  {
   "property": "C12",
   "status": "proved",
   "theorems": [
    "Rauc.Select.C12_exactly_once",
    "Rauc.Select.C12_plan_ok",
    "Rauc.Select.C12_artifacts",
    "Rauc.Select.C12_no_artifact_in_slot",
    "Rauc.Select.C12_never_empty",
    "Rauc.Select.C12_refused",
    "Rauc.Select.C12_accepted",
    "Rauc.Select.C12_artifact_image_in_slot"
   ],
   "note": ""
  },
  {
   "property": "C13",
   "status": "partial",
   "theorems": [
    "Rauc.Install.C13_bad_first",
    "Rauc.Install.C13_active_last",
    "Rauc.Install.C13_failure_not_activated",
    "Rauc.Install.C13_success",
    "Rauc.Install.C13_child_only_violated",
    "Rauc.Install.C13_post_handler_violated"
   ],
   "note": "Default handler, all oracles: order proved for the boot slot among the image targets. The English claim fails when only child slots are updated (the group's boot slot is not marked) and when the post-install handler fails (already activated)."
  },
  {
   "property": "C14",
   "status": "partial",
   "theorems": [
    "Rauc.Install.C14_shared",
    "Rauc.Install.C14_shared_not_skipped",
    "Rauc.Install.C14_per_slot_partial",
    "Rauc.Install.C14_per_slot_violated"
   ],
   "note": "Shared status file: invariant over every history of installs, marks and crashes at any point. Per-slot files: only 'retry of the same image is not skipped'; an old ok status may survive."
  },
  {
   "property": "C15",
   "status": "partial",
   "theorems": [
    "Rauc.Install.C15_skip",
    "Rauc.Install.C15_install_same",
    "Rauc.Install.C15_no_digest_violated"
   ],
   "note": "Proved for images with a digest; images without digest (hook-only) compare NULL with NULL and are skipped."
  },
  {
   "property": "C16",
   "status": "proved",
   "theorems": [
    "Rauc.Install.C16_checked_before_write"
   ],
   "note": "All oracles: every write, boot loader request and custom handler start is preceded by the checks."
  },
  {
   "property": "C17",
   "status": "proved",
   "theorems": [
    "Rauc.Install.C17_pinned",
    "Rauc.Install.C17_signed_manifest_used"
   ],
   "note": "check_bundle result is an argument; manifest.hash is the sha256 of the signed manifest text computed by load_manifest_mem (not modelled)."
  },
  {
   "property": "C18",
   "status": "proved",
   "theorems": [
    "Rauc.Install.C18_unmounted",
    "Rauc.Install.C18_once",
    "Rauc.Install.C18_abort_causes",
    "Rauc.Install.C18_emptyfs_aborts"
   ],
   "note": "For every run that returns; if umount itself fails the bundle stays mounted. Process aborts are characterised separately."
  },
  {
   "property": "C19",
   "status": "partial",
   "theorems": [
    "Rauc.C19_local_partial",
    "Rauc.C19_shared_partial",
    "Rauc.C19_other_fields",
    "Rauc.C19_violated",
    "Rauc.C19_dates"
   ],
   "note": "All fields except the transaction id, which the code writes but never reads (violation proved). Representable statuses: SlotStatus.WF."
  },
  {
   "property": "C20",
   "status": "proved",
   "theorems": [
    "Rauc.C20_slots_keep_rest",
    "Rauc.C20_system_keeps_rest",
    "Rauc.C20_system_keeps_slots",
    "Rauc.C20_slots_keep_system",
    "Rauc.C20_system_roundtrip",
    "Rauc.C20_failed_save"
   ],
   "note": "GKeyFile text format trusted."
  },
  {
   "property": "C21",
   "status": "partial",
   "theorems": [
    "Rauc.Semver.C21_is_precedence",
    "Rauc.Semver.C21_refl",
    "Rauc.Semver.C21_trans",
    "Rauc.Semver.C21_total",
    "Rauc.Semver.C21_error_symm",
    "Rauc.Semver.C21_semver_partial",
    "Rauc.Semver.C21_semver_violated"
   ],
   "note": "Total preorder on accepted strings proved for all strings; agreement with semver.org precedence for identifiers without hyphens and numbers < 2^64; outside this the code deviates (C21_semver_violated)."
  },
  {
   "property": "C22",
   "status": "proved",
   "theorems": [
    "Rauc.Semver.C22_fails_closed",
    "Rauc.Semver.C22_off"
   ],
   "note": "check_version_limits accepts iff a version is present, both parse and min <= version."
  },
  {
   "property": "C23",
   "status": "proved",
   "theorems": [
    "Rauc.Config.C23_depth_one",
    "Rauc.Config.C23_cycle_rejected",
    "Rauc.Config.C23_missing_rejected",
    "Rauc.Config.C23_accepts",
    "Rauc.Config.C23_loaded_wf",
    "Rauc.Config.C23_jffs2_rejected"
   ],
   "note": "depth one, exact rejection of cycles/missing parents/boot names on children, acceptance of all chains of at most 101 links (longer ones depend on iteration order); loaded configurations satisfy the hypotheses of the boot theorems"
  },
  {
   "property": "C24",
   "status": "proved",
   "theorems": [
    "Rauc.Config.C24_exact",
    "Rauc.Config.C24_error_unchanged"
   ],
   "note": "exact characterisation"
  },
  {
   "property": "C25",
   "status": "partial",
   "theorems": [
    "Rauc.Config.C25_partial",
    "Rauc.Config.C25_error_iff",
    "Rauc.Config.C25_garbage_violated",
    "Rauc.Config.C25_concrete_violated"
   ],
   "note": "well-formed numbers are read exactly; the full property (everything else is an error) is false of the code: garbage is ignored and overflow wraps, proved as findings"
  },
  {
   "property": "C26",
   "status": "proved",
   "theorems": [
    "Rauc.Utils.C26_decode_exact",
    "Rauc.Utils.C26_round_trip"
   ],
   "note": "exact characterisation of decoding, round trip"
  },
  {
   "property": "C27",
   "status": "proved",
   "theorems": [
    "Rauc.Utils.C27_key_exact",
    "Rauc.Utils.C27_exported_exact",
    "Rauc.Utils.C27_well_formed",
    "Rauc.Utils.C27_collision"
   ],
   "note": "manifest meta variables; the other exported variables have literal names in the source"
  },
  {
   "property": "C28",
   "status": "proved",
   "theorems": [
    "Rauc.Utils.C28_read_exact",
    "Rauc.Utils.C28_read_complete",
    "Rauc.Utils.C28_write_exact",
    "Rauc.Utils.C28_write_complete",
    "Rauc.Utils.C28_lazy",
    "Rauc.Utils.C28_zero_writes_spin"
   ],
   "note": "all schedules; additionally completion under fair schedules"
  },
  {
   "property": "C29",
   "status": "partial",
   "theorems": [
    "Rauc.HashIndex.C29_sound",
    "Rauc.HashIndex.C29_complete",
    "Rauc.HashIndex.C29_window_complete_partial",
    "Rauc.HashIndex.C29_window_violated"
   ],
   "note": "Soundness for every index contents. Completeness without a window for all hashes; with a window for all but the smallest hash of the index, for which it is false in the code (C29_window_violated: the walk back to the first occurrence is lost when it reaches the start of the table)."
  },
  {
   "property": "C30",
   "status": "partial",
   "theorems": [
    "Rauc.HashIndex.C30_exact",
    "Rauc.HashIndex.C30_never_fails",
    "Rauc.HashIndex.C30_truncated_index_violated",
    "Rauc.HashIndex.C30_small_crash"
   ],
   "note": "Proved unless a chunk on the target differs from the image's at the same place but has the same SHA-256 (Forged; both are named), for an image index that is either absent or the one bundle creation generates. Findings: a truncated (signed) index file yields a partial image reported as success; indices of fewer than nine chunks divide by zero when progress is reported."
  },
  {
   "property": "C31",
   "status": "proved",
   "theorems": [
    "Rauc.Verity.C31_roundtrip",
    "Rauc.Verity.C31_create_succeeds",
    "Rauc.Verity.C31_verify_root",
    "Rauc.Verity.C31_binding",
    "Rauc.Verity.C31_root_unique",
    "Rauc.Verity.code_wf"
   ],
   "note": "For all sizes and all hash functions with digests of the right length; the conclusion of C31_binding names the colliding blocks. The root hash is characterised by an independent inductive definition of the Merkle tree (IsRoot). Not modelled: stdio buffering between the two streams on the same file, write errors (the result of the final fclose is ignored by the code)."
  },
  {
   "property": "C32",
   "status": "proved",
   "theorems": [
    "Rauc.Bundle.C32_open_local",
    "Rauc.Bundle.C32_unique",
    "Rauc.Bundle.C32_open_remote",
    "Rauc.Bundle.C32_bundle_remote",
    "Rauc.Bundle.C32_append_open",
    "Rauc.Bundle.C32_replace",
    "Rauc.Bundle.C32_replace_restores"
   ],
   "note": "Signature sizes below 2^64 (the trailer has eight bytes)."
  },
  {
   "property": "C33",
   "status": "proved",
   "theorems": [
    "Rauc.Bundle.C33_check_bundle",
    "Rauc.Bundle.C33_plain_payload",
    "Rauc.Bundle.C33_stream_not_plain",
    "Rauc.Bundle.C33_payload_checked",
    "Rauc.Bundle.C33_payload_binding",
    "Rauc.Bundle.C33_mount",
    "Rauc.Bundle.C33_require_hash",
    "Rauc.Bundle.C33_no_abort",
    "Rauc.Bundle.signatureOk_iff",
    "Rauc.Bundle.Example.C33_finding_unaligned_abort"
   ],
   "note": "OpenSSL and the system calls are arbitrary functions; quirk stated in C33_plain_payload: for an empty payload the signature is checked over the whole file."
  },
  {
   "property": "C34",
   "status": "proved",
   "theorems": [
    "Rauc.Access.C34_access",
    "Rauc.Access.C34_no_other_writer",
    "Rauc.Access.C34_accepts",
    "Rauc.Access.C34_take",
    "Rauc.Access.C34_enforce"
   ],
   "note": "Lease semantics as documented in fcntl(2)."
  },
  {
   "property": "C35",
   "status": "proved",
   "theorems": [
    "Rauc.ManifestFile.C35_external",
    "Rauc.ManifestFile.C35_internal",
    "Rauc.ManifestFile.C35_external_complete",
    "Rauc.ManifestFile.C35_internal_complete",
    "Rauc.ManifestFile.C35_finding_names"
   ],
   "note": "exact characterisation of accepted manifests; finding: '..' as image name and separators in hook/handler names are accepted"
  },
  {
   "property": "C36",
   "status": "proved",
   "theorems": [
    "Rauc.Artifacts.C36_session",
    "Rauc.Artifacts.C36_durable",
    "Rauc.Artifacts.C36_activate",
    "Rauc.Artifacts.C36_commit",
    "Rauc.Artifacts.C36_finding_stale_link_blocks",
    "Rauc.Artifacts.Example.C36_finding_alias"
   ],
   "note": "histories of interrupted installations from an empty repository without parents (the code supports installing only there), lower-case digests; activate/commit for any parents; success implies every write was synced. Findings: a temporary link left by a crash blocks later updates; alias links give duplicate references"
  },
  {
   "property": "C37",
   "status": "partial",
   "theorems": [
    "Rauc.Artifacts.C37_references",
    "Rauc.Artifacts.C37_prune_parents",
    "Rauc.Artifacts.C37_prune_partial",
    "Rauc.Artifacts.C37_prune_complete_partial",
    "Rauc.Artifacts.C37_links_resolve_partial",
    "Rauc.Artifacts.Example.C37_finding_uppercase"
   ],
   "note": "proved for artifacts with lower-case digests in every repository state; with an upper-case digest (accepted by the manifest check) pruning removes the referenced artifact (finding proved)"
  },
  {
   "property": "C38",
   "status": "partial",
   "theorems": [
    "Rauc.Daemon.C38_backoff_partial",
    "Rauc.Daemon.C38_history_partial",
    "Rauc.Daemon.C38_finding_overflow"
   ],
   "note": "Proved for maximum intervals up to 2147483 s (24.8 days); beyond that the conversion to milliseconds overflows and the claim is false (C38_finding_overflow)."
  },
  {
   "property": "C39",
   "status": "partial",
   "theorems": [
    "Rauc.Daemon.C39_no_repeat_partial",
    "Rauc.Daemon.C39_once",
    "Rauc.Daemon.C39_install",
    "Rauc.Daemon.C39_higher",
    "Rauc.Daemon.C39_finding_alternating",
    "Rauc.Daemon.C39_finding_no_version"
   ],
   "note": "Criteria, binding to the hash and exclusion are proved for all histories; 'never twice' is proved for consecutive attempts only, because only the last attempt is remembered (C39_finding_alternating)."
  },
  {
   "property": "C40",
   "status": "proved",
   "theorems": [
    "Rauc.EventLog.C40_bounded",
    "Rauc.EventLog.C40_number",
    "Rauc.EventLog.C40_suffix",
    "Rauc.EventLog.C40_step",
    "Rauc.EventLog.C40_room",
    "Rauc.EventLog.C40_finding_one",
    "Rauc.EventLog.C40_finding_zero"
   ],
   "note": "For all histories of starts, events, failing calls and kills; assumes that the position of a file opened for appending is its end, atomic ordered renames and no wrap of 64 bit sizes."
  },
  {
   "property": "C41",
   "status": "partial",
   "theorems": [
    "Rauc.Switch.C41_mbr_partial",
    "Rauc.Switch.C41_mbr_success_partial",
    "Rauc.Switch.C41_gpt_partial",
    "Rauc.Switch.C41_finding_truncated",
    "Rauc.Switch.C41_finding_gpt_backup",
    "Rauc.Switch.C41_chs"
   ],
   "note": "false for halves of 4 GiB and more (Rauc.Copy.C41_finding_clear_forever) and for MBR sector numbers of 2^32 and more; what libfdisk writes is not modelled"
  },
  {
   "property": "C42",
   "status": "partial",
   "theorems": [
    "Rauc.Switch.C42_single",
    "Rauc.Switch.C42_histories_partial",
    "Rauc.Switch.C42_finding_unsynced_clear"
   ],
   "note": "single updates: proved for any reordering. Repeatedly interrupted updates: proved for in-order devices, false if writes are reordered (finding)"
  },
  {
   "property": "C43",
   "status": "partial",
   "theorems": [
    "Rauc.Emmc.C43_register",
    "Rauc.Emmc.C43_inactive_only",
    "Rauc.Emmc.C43_success_partial",
    "Rauc.Emmc.C43_cleared",
    "Rauc.Emmc.C43_finding_false_success",
    "Rauc.Emmc.C43_protected_partial",
    "Rauc.Emmc.C43_finding_force_ro"
   ],
   "note": "the success part is false if no boot partition was enabled before; a refused change of force_ro is not noticed (findings); that nothing of the old content is left is proved in full (C43_cleared)"
  },
  {
   "property": "C44",
   "status": "partial",
   "theorems": [
    "Rauc.Nbd.C44_one_reply_partial",
    "Rauc.Nbd.C44_replies",
    "Rauc.Nbd.C44_success",
    "Rauc.Nbd.C44_content",
    "Rauc.Nbd.C44_attempts",
    "Rauc.Nbd.C44_error",
    "Rauc.Nbd.C44_configure",
    "Rauc.Nbd.C44_wire_partial",
    "Rauc.Nbd.C44_terminates",
    "Rauc.Nbd.C44_client",
    "Rauc.Nbd.C44_finding_header",
    "Rauc.Nbd.C44_finding_4gib",
    "Rauc.Nbd.C44_wire",
    "Rauc.Nbd.C44_client_request"
   ],
   "note": "All schedules of requests, data and transfer ends, any number of parallel requests. Missing: after a short 206 response the server sends the header of a success reply and then aborts (C44_finding_header)."
  },
  {
   "property": "C45",
   "status": "partial",
   "theorems": [
    "Rauc.Daemon.C45_one_at_a_time",
    "Rauc.Daemon.C45_installing_sound",
    "Rauc.Daemon.C45_operation_partial",
    "Rauc.Daemon.C45_finding_busy",
    "Rauc.Daemon.C45_finding_auto",
    "Rauc.Daemon.C45_finding_auto_abort"
   ],
   "note": "Mutual exclusion proved for all histories; 'installing' implies running for all histories; the converse is false after a refused request and for automatic installation (findings), proved otherwise."
  },
  {
   "property": "C46",
   "status": "partial",
   "theorems": [
    "Rauc.Progress.C46_progress_partial",
    "Rauc.Progress.C46_prefix_partial",
    "Rauc.Progress.C46_hundred_partial",
    "Rauc.Progress.C46_finding_float",
    "Rauc.Progress.C46_finding_failed",
    "Rauc.Progress.C46_finding_single",
    "Rauc.Progress.C46_rounding",
    "Rauc.Progress.C46_single_partial",
    "Rauc.Progress.C46_installation_partial"
   ],
   "note": "All correctly nested step trees, at every moment, in exact arithmetic. In single precision (rnd32 is proved to be rounding to nearest, ties to even): no assertion fails, all reports are within 0..100, the last one is 100, for all mildly nested step trees and so for every installation of up to 1000 images. Missing: in single precision the percentage can run backwards (C46_finding_float); 100 is also reported on failure and for a single child step."
  },
  {
   "property": "C47",
   "status": "proved",
   "theorems": [
    "Rauc.Crypt.C47_roundtrip",
    "Rauc.Crypt.C47_sector",
    "Rauc.Crypt.C47_iv",
    "Rauc.Crypt.C47_iv_unique",
    "Rauc.Crypt.C47_device",
    "Rauc.Crypt.C47_rejects",
    "Rauc.Crypt.C47_finding_rest",
    "Rauc.Crypt.C47_finding_read_error",
    "Rauc.Crypt.C47_finding_disk_full"
   ],
   "note": "All payloads, keys and block ciphers, with and without a size limit, and the kernel's view of the encrypted device. Findings: read errors at a sector boundary and a full disk go unnoticed; a rest below one sector after the payload makes decryption fail."
  },
  {
   "property": "C48",
   "status": "proved",
   "theorems": [
    "Rauc.Handlers.C48_found_iff",
    "Rauc.Handlers.C48_hook",
    "Rauc.Handlers.C48_unique_handler",
    "Rauc.Handlers.C48_boot_slots",
    "Rauc.Handlers.C48_supported_iff",
    "Rauc.Handlers.C48_derived_supported",
    "Rauc.Handlers.C48_most_specific",
    "Rauc.Handlers.C48_extension",
    "Rauc.ManifestFile.C48_manifest_types"
   ],
   "note": ""
  },
  {
   "property": "C49",
   "status": "proved",
   "theorems": [
    "Rauc.Copy.C49_within",
    "Rauc.Copy.C49_within_header_partial",
    "Rauc.Copy.C49_complete",
    "Rauc.Copy.C49_header_last",
    "Rauc.Copy.C49_device",
    "Rauc.Copy.C49_finding_header"
   ],
   "note": "header-last mode with a file longer than announced may write one header more than the announced size before failing (finding)"
  },
  {
   "property": "C50",
   "status": "partial",
   "theorems": [
    "Rauc.ManifestFile.C50_roundtrip_partial",
    "Rauc.ManifestFile.C50_finding_min_version_lost",
    "Rauc.ManifestFile.C50_finding_trailing_blank",
    "Rauc.ManifestFile.C50_finding_empty_meta",
    "Rauc.ManifestFile.C50_finding_version_unenforced",
    "Rauc.ManifestFile.C50_text_partial"
   ],
   "note": "Round trip for every manifest in parser form (ManifestWf), and for every manifest read from a text that GLib can keep (TextOk: no blanks at the end of values, no empty sections or lists, sizes below 2^63); min-rauc-version is dropped by the code (finding), so the full statement is false of it."
  },
  {
   "property": "C51",
   "status": "proved",
   "theorems": [
    "Rauc.Utils.C51_shell_output"
   ],
   "note": "against a small specification of POSIX word parsing; g_shell_quote modelled"
  },
  {
   "property": "C52",
   "status": "partial",
   "theorems": [
    "Rauc.Utils.C52_atomic",
    "Rauc.Utils.C52_success",
    "Rauc.Utils.C52_succeeds",
    "Rauc.Utils.C52_stale_temporary"
   ],
   "note": "atomicity proved; that a later attempt after a crash works is false of the code (finding C52_stale_temporary)"
  },
  {
   "property": "C53",
   "status": "proved",
   "theorems": [
    "Rauc.Bundle.C53_signer"
   ],
   "note": "Signers as reported by CMS_get0_signers."
  },
  {
   "property": "C54",
   "status": "proved",
   "theorems": [
    "Rauc.Daemon.C54_gate",
    "Rauc.Daemon.C54_criteria",
    "Rauc.Daemon.C54_after_reboot",
    "Rauc.Install.C54_updated",
    "Rauc.Install.C54_finding_custom_handler",
    "Rauc.Install.C54_finding_unchanged"
   ],
   "note": "All histories of the service/poller state machine; C54_updated says what the flags of the criteria mean for the bundle (all devices, bundles, outcomes). Findings: after an update by a custom handler neither updated-slots nor updated-artifacts is ever met; updated-slots is met although no slot was written because all held their images already."
  },
  {
   "property": "C55",
   "status": "partial",
   "theorems": [
    "Rauc.Boot.C55_uboot_sound",
    "Rauc.Boot.C55_uboot_complete",
    "Rauc.Boot.C55_uboot_first",
    "Rauc.Boot.C55_grub_sound",
    "Rauc.Boot.C55_grub_complete",
    "Rauc.Boot.C55_grub_first",
    "Rauc.Boot.C55_barebox_sound",
    "Rauc.Boot.C55_barebox_complete",
    "Rauc.Boot.C55_barebox_first",
    "Rauc.Boot.C55_efi_sound_partial",
    "Rauc.Boot.C55_efi_complete",
    "Rauc.Boot.C55_efi_violated"
   ],
   "note": "Complete for U-Boot, GRUB and barebox. EFI: a slot which is only the one-time target (BootNext) is reported primary and bad (C55_efi_violated); C55_efi_sound_partial excludes that."
  },
  {
   "property": "C56",
   "status": "proved",
   "theorems": [
    "Rauc.BootName.C56_slot_parameter",
    "Rauc.BootName.C56_external",
    "Rauc.BootName.C56_custom",
    "Rauc.BootName.C56_efi",
    "Rauc.BootName.C56_barebox",
    "Rauc.BootName.C56_root_parameter",
    "Rauc.BootName.C56_verity_parameter",
    "Rauc.BootName.C56_unknown_refused",
    "Rauc.BootName.C56_running_not_targeted",
    "Rauc.BootName.C56_finding_unanchored",
    "Rauc.BootName.C56_finding_external_value",
    "Rauc.BootName.C56_finding_ambiguous"
   ],
   "note": "Command lines are lists of parameters, each followed by white space. The identifying text must denote one slot (OnlySlot) and no earlier parameter may contain the searched text; the findings show what happens otherwise."
  },
  {
   "property": "C57",
   "status": "proved",
   "theorems": [
    "Rauc.BootCustom.C57_one_documented_call",
    "Rauc.BootCustom.C57_result",
    "Rauc.BootCustom.C57_activate",
    "Rauc.BootCustom.C57_mark",
    "Rauc.BootCustom.C57_noop",
    "Rauc.BootCustom.C57_unsupported"
   ],
   "note": "The backend is an arbitrary state machine; Honest is the documented contract, used only for C57_activate and C57_mark."
  },
  {
   "property": "C58",
   "status": "partial",
   "theorems": [
    "Rauc.Update.C58_pre_hook_first",
    "Rauc.Update.C58_hooks_only_if_enabled",
    "Rauc.Update.C58_complete",
    "Rauc.Update.C58_derived_fits",
    "Rauc.Update.C58_success",
    "Rauc.Update.C58_unmounted",
    "Rauc.Update.C58_access",
    "Rauc.Update.C58_install_hook",
    "Rauc.Update.C58_hooks_mounted_partial",
    "Rauc.Update.C58_nand_erased",
    "Rauc.Update.C58_vfat_label",
    "Rauc.Update.C58_tar_flag",
    "Rauc.Update.C58_finding_pre_hook_not_mounted",
    "Rauc.Update.C58_finding_post_hook_not_mounted",
    "Rauc.Update.C58_finding_flash_not_erased",
    "Rauc.Update.C58_finding_type_ignored",
    "Rauc.Update.C58_device_session"
   ],
   "note": "All claims for the eleven plain handlers, for every environment; the last sentence is false for archives on ext4/vfat (pre-install hook) and raw chunk store images on ext4/vfat: proved with these exceptions (suffix _partial), counterexamples as findings. The content claim needs a file name that fits the declared image type (derived types always do)."
  },
  {
   "property": "C59",
   "status": "proved",
   "theorems": [
    "Rauc.ConfigFile.C59_exact",
    "Rauc.ConfigFile.C59_no_unknown_option",
    "Rauc.ConfigFile.C59_keyring_flags",
    "Rauc.ConfigFile.C59_usable",
    "Rauc.ConfigFile.C59_override_wins",
    "Rauc.ConfigFile.C59_integer",
    "Rauc.ConfigFile.C59_unsigned",
    "Rauc.ConfigFile.C59_finding_empty_is_missing",
    "Rauc.ConfigFile.C59_finding_negative_limit"
   ],
   "note": "LoadSpec states every section and option separately from the parser; numbers are characterized by C59_integer and C59_unsigned, sizes with a suffix by C25. GLib's loading of the text and its list reader are as modelled in the library; paths are resolved by an arbitrary function"
  },
  {
   "property": "C60",
   "status": "partial",
   "theorems": [
    "Rauc.HandlerEnv.C60_handler_environment",
    "Rauc.HandlerEnv.C60_foreign_variables",
    "Rauc.HandlerEnv.C60_meta_only",
    "Rauc.HandlerEnv.C60_info_names",
    "Rauc.HandlerEnv.C60_image_is_planned",
    "Rauc.HandlerEnv.C60_slot_hook_environment",
    "Rauc.HandlerEnv.C60_bundle_hook_environment",
    "Rauc.HandlerEnv.C60_system_info",
    "Rauc.HandlerEnv.C60_messages",
    "Rauc.HandlerEnv.C60_bundle_hook_result",
    "Rauc.HandlerEnv.C60_finding_variant"
   ],
   "note": "complete except for one finding: with several variants of an image, RAUC_IMAGE_*_<N> describe the first one of the class, not the one for this system (C60_finding_variant); with one image per class they describe the planned one (C60_image_is_planned)"
  },
  {
   "property": "C61",
   "status": "partial",
   "theorems": [
    "Rauc.Create.C61_create_partial",
    "Rauc.Create.C61_input",
    "Rauc.Create.C61_failure",
    "Rauc.Create.C61_copy_complete",
    "Rauc.Create.C61_copy_sound",
    "Rauc.Create.C61_copy_refuses",
    "Rauc.Create.C61_finding_shared",
    "Rauc.Create.C61_finding_index_name",
    "Rauc.Create.C61_finding_workdir",
    "Rauc.Create.C61_finding_fakeroot",
    "Rauc.Create.C61_finding_empty_convert",
    "Rauc.Create.C61_finding_dropped",
    "Rauc.Create.C61_text_partial"
   ],
   "note": "end to end: create_bundle, check_bundle, extract_bundle, for all three formats. Partial: the manifest is one that GLib's text format keeps (ManifestWf; min-rauc-version is lost, C50), files below 2^63 bytes, no empty convert list (C61_finding_empty_convert); the external tools, SHA-256, cipher and signature are arbitrary functions with the stated laws (Sound, Trusts); permissions and attributes are not modelled. The exceptions are proved as findings"
  },
  {
   "property": "C62",
   "status": "partial",
   "theorems": [
    "Rauc.Create.C62_resign_partial",
    "Rauc.Create.C62_created_partial",
    "Rauc.Create.C62_resign_complete",
    "Rauc.Create.C62_resign_verified",
    "Rauc.Create.C62_failure",
    "Rauc.Create.C62_finding_race",
    "Rauc.Create.C62_finding_append",
    "Rauc.Create.C62_encrypt",
    "Rauc.Create.C62_replace",
    "Rauc.Create.C62_replace_keyring",
    "Rauc.Create.C62_finding_keyring",
    "Rauc.Create.C62_finding_payload",
    "Rauc.Create.C62_finding_reopened",
    "Rauc.Create.C62_extract_signature",
    "Rauc.Create.C62_finding_partial_signature",
    "Rauc.Create.C62_restore",
    "Rauc.Create.C62_reported"
   ],
   "note": "Partial: the texts of the manifest must survive being written (C50), and the tools (mksquashfs, CMS, GLib) are functions with stated laws. Violations are stated as findings: --append gives bundles nobody accepts, replace-signature does not check the payload of verity bundles, a racing output file is deleted, a plain bundle is opened a second time after its check, a temporary keyring stays configured if none was."
  },
  {
   "property": "C63",
   "status": "partial",
   "theorems": [
    "Rauc.Create.C63_convert_partial",
    "Rauc.Create.C63_failed",
    "Rauc.Create.C63_store",
    "Rauc.Create.C63_finding_crypt",
    "Rauc.Create.C63_finding_shared",
    "Rauc.Create.C63_finding_type"
   ],
   "note": "Acceptance, restorability and frame proved for plain and verity bundles whose files are independent, with known types for the new names; the remaining cases are false (findings): crypt, shared files, unknown types. casync/desync are parameters (with desync archives are indexed as blobs, then the hypothesis Restores.archs does not hold)."
  },
  {
   "property": "C64",
   "status": "partial",
   "theorems": [
    "Rauc.BootText.C64_uboot_partial",
    "Rauc.BootText.C64_uboot_marks_partial",
    "Rauc.BootText.C64_uboot_output",
    "Rauc.BootText.C64_grub_partial",
    "Rauc.BootText.C64_grub_marks_partial",
    "Rauc.BootText.C64_grub_output",
    "Rauc.BootText.C64_barebox_partial",
    "Rauc.BootText.C64_barebox_marks_partial",
    "Rauc.BootText.C64_barebox_output",
    "Rauc.BootText.C64_barebox_number",
    "Rauc.BootText.C64_efi_partial",
    "Rauc.BootText.C64_efi_output_partial",
    "Rauc.BootText.C64_efi_lines",
    "Rauc.BootText.C64_efi_create",
    "Rauc.BootText.C64_efi_current_partial",
    "Rauc.BootText.C64_finding_grub_equals",
    "Rauc.BootText.C64_finding_efi_label",
    "Rauc.BootText.C64_finding_efi_tab",
    "Rauc.BootText.C64_efi_field"
   ],
   "note": "Proved under the conditions: no '=' in boot names, no line feed in GRUB variables, 32 bit barebox variables, EFI labels without tab and line end. Without them the property is false for GRUB and EFI (findings). C04, C05 and EFI C01, C02 keep the conditions of the respective partial theorems. The tools are trusted specifications."
  },
  {
   "property": "C65",
   "status": "partial",
   "theorems": [
    "Rauc.Composefs.C65_objects",
    "Rauc.Composefs.C65_complete_partial",
    "Rauc.Composefs.C65_open",
    "Rauc.Composefs.C65_session",
    "Rauc.Composefs.C65_refused",
    "Rauc.Composefs.C65_finding_blocked",
    "Rauc.Composefs.Example.C65_finding_not_repaired"
   ],
   "note": "Proved for digests in lower case (for upper case digests the data is removed, see C37_finding_uppercase) and repositories without parents (the configuration parser refuses parents, config_file.c:1188-1192, so there are no others). Findings: a half removed artifact that a temporary link still refers to blocks every installation; a missing object is not repaired by installing the bundle again."
  },
  {
   "property": "C66",
   "status": "proved",
   "theorems": [
    "Rauc.DataDir.C66_origin",
    "Rauc.DataDir.C66_index_of_digest",
    "Rauc.DataDir.C66_foreign_untouched",
    "Rauc.DataDir.C66_one_left",
    "Rauc.DataDir.C66_after_load",
    "Rauc.DataDir.C66_failed_left",
    "Rauc.DataDir.C66_names",
    "Rauc.DataDir.C66_bounded",
    "Rauc.DataDir.C66_index_kept",
    "Rauc.DataDir.C66_interrupted_accumulate",
    "Rauc.DataDir.C66_move_refused"
   ],
   "note": "Histories with crashes at every modelled system call; removal of a tree may stop half way. C66_interrupted_accumulate shows the bound of C66_bounded is met: nothing is removed while a slot is pending. Loss of data in the page cache at a crash (g_file_set_contents on a freshly created directory) is not modelled."
  },
  {
   "property": "C67",
   "status": "partial",
   "theorems": [
    "Rauc.Devices.C67_failed_mount_leaves_nothing_partial",
    "Rauc.Devices.C67_mounted",
    "Rauc.Devices.C67_unmounted_leaves_nothing",
    "Rauc.Devices.C67_status",
    "Rauc.Devices.C67_verity_table",
    "Rauc.Devices.C67_verity_table_of_manifest",
    "Rauc.Devices.C67_crypt_table",
    "Rauc.Devices.C67_loop_foreign_untouched",
    "Rauc.Devices.C67_loop_configured",
    "Rauc.Devices.C67_loop_failure_releases",
    "Rauc.Devices.C67_ten_tries",
    "Rauc.Devices.C67_finding_stuck_blocks",
    "Rauc.Devices.C67_finding_busy_device_stays",
    "Rauc.Devices.C67_finding_killed_device_stays",
    "Rauc.Devices.C67_table_fits"
   ],
   "note": "Partial because the full statement is false of the code: removals after a failed setup are not deferred, so a device held open by another process (udev) stays (C67_finding_busy_device_stays), as does one of a killed process (C67_finding_killed_device_stays), and then blocks every later verity or crypt bundle (C67_finding_stuck_blocks). Everything else is proved for all system call outcomes. The kernel's semantics (unique names, deferred removal, auto-clear) are modelled, not verified."
  },
  {
   "property": "C68",
   "status": "partial",
   "theorems": [
    "Rauc.System.C68_atomic",
    "Rauc.System.C68_crash",
    "Rauc.System.C68_fallback",
    "Rauc.System.C68_success",
    "Rauc.System.C68_untouched",
    "Rauc.System.C68_running_untouched",
    "Rauc.System.C68_life",
    "Rauc.System.C68_no_boot_slot",
    "Rauc.System.atomic_uboot",
    "Rauc.System.atomic_grub",
    "Rauc.System.atomic_barebox",
    "Rauc.System.atomic_efi",
    "Rauc.System.C68_child_only_violated",
    "Rauc.System.C68_partial_bundle_violated"
   ],
   "note": "Proved for a shared status file, bundles without custom handler and with a boot slot among the targets; EFI under EfiReady (unique numbers, slot once in the boot order and not in BootNext). Not covered: per-slot status files, hooks and handlers that touch the boot loader. The claim fails for bundles with a child slot only (finding) and, over several updates, for bundles that leave out a child slot (finding)."
  },
  {
   "property": "C69",
   "status": "partial",
   "theorems": [
    "Rauc.StatusView.C69_slots_partial",
    "Rauc.StatusView.C69_status_partial",
    "Rauc.StatusView.C69_shell",
    "Rauc.StatusView.C69_words",
    "Rauc.StatusView.C69_readable_all",
    "Rauc.StatusView.C69_readable_partial",
    "Rauc.StatusView.C69_count_violated",
    "Rauc.StatusView.C69_readable_violated",
    "Rauc.StatusView.C69_abort"
   ],
   "note": "Proved for the shell output and the D-Bus dictionaries, for every table whose names are unique and whose parents exist (C23) and statuses the service can send completely; JSON output is C83; of the readable output only which slots are shown. Partial: the activation count is not shown after a reinstallation without activation (C69_count_violated); the readable output shows a slot twice if its class has slots with and without parents (C69_readable_violated)."
  },
  {
   "property": "C70",
   "status": "proved",
   "theorems": [
    "Rauc.StatusView.C70_shell",
    "Rauc.StatusView.C70_image",
    "Rauc.StatusView.C70_reply",
    "Rauc.StatusView.C70_inspect",
    "Rauc.StatusView.C70_key",
    "Rauc.StatusView.C70_size_violated"
   ],
   "note": "Shell output and InspectBundle dictionary. C70_size_violated is a cosmetic finding on images without a file. JSON output is C83; the readable output is not modelled."
  },
  {
   "property": "C71",
   "status": "partial",
   "theorems": [
    "Rauc.Client.C71_code",
    "Rauc.Client.C71_own_partial",
    "Rauc.Client.C71_alone_partial",
    "Rauc.Client.C71_no_hang",
    "Rauc.Client.C71_own_runs",
    "Rauc.Client.C71_race_violated",
    "Rauc.Client.C71_last_counts_violated"
   ],
   "note": "proved for histories in which nobody else's installation ends between subscription and call or after the own end (in particular when nobody else installs); false otherwise: C71_race_violated, C71_last_counts_violated"
  },
  {
   "property": "C72",
   "status": "partial",
   "theorems": [
    "Rauc.Stream.C72_install",
    "Rauc.Stream.C72_inspect",
    "Rauc.Stream.C72_cli",
    "Rauc.Stream.C72_first_request",
    "Rauc.Stream.C72_later_requests",
    "Rauc.Stream.C72_privacy",
    "Rauc.Stream.C72_location",
    "Rauc.Stream.C72_file_partial",
    "Rauc.Stream.C72_colon_violated",
    "Rauc.Stream.C72_scheme",
    "Rauc.Stream.C72_remote"
   ],
   "note": "all parts proved except that an existing file in the working directory is found: false for names with a colon (C72_colon_violated)"
  },
  {
   "property": "C73",
   "status": "proved",
   "theorems": [
    "Rauc.Stream.C73_opened",
    "Rauc.Stream.C73_size",
    "Rauc.Stream.C73_errors",
    "Rauc.Stream.C73_conditional",
    "Rauc.Stream.C73_poll",
    "Rauc.Stream.C73_poll_failed",
    "Rauc.Stream.C73_negative_violated"
   ],
   "note": "sizes as strtoull reads them: a negative size is accepted (C73_negative_violated, noted as a finding); libcurl and curl_getdate are parameters"
  },
  {
   "property": "C74",
   "status": "proved",
   "theorems": [
    "Rauc.Sandbox.C74_dropped",
    "Rauc.Sandbox.C74_no_return",
    "Rauc.Sandbox.C74_user",
    "Rauc.Sandbox.C74_unknown_user",
    "Rauc.Sandbox.C74_real_ids_violated"
   ],
   "note": "privileges are those of user ID 0 (no separate capabilities); the kernel's credential calls are specified from credentials(7). C74_real_ids_violated: a set-user-ID rauc (not supported) would not drop them"
  },
  {
   "property": "C75",
   "status": "partial",
   "theorems": [
    "Rauc.Download.C75_limit",
    "Rauc.Download.C75_prefix",
    "Rauc.Download.C75_complete_partial",
    "Rauc.Download.C75_no_overwrite",
    "Rauc.Download.C75_flush_violated"
   ],
   "note": "completeness on success needs that flushing works: results of fflush and fclose are ignored (C75_flush_violated)"
  },
  {
   "property": "C76",
   "status": "proved",
   "theorems": [
    "Rauc.CasyncCmd.C76_arch",
    "Rauc.CasyncCmd.C76_blob",
    "Rauc.CasyncCmd.C76_process"
   ],
   "note": "shell grammar specified for words, single quotes, escapes and &&; NUL bytes cannot occur in C strings"
  },
  {
   "property": "C77",
   "status": "proved",
   "theorems": [
    "Rauc.Context.C77_config",
    "Rauc.Context.C77_setting",
    "Rauc.Context.C77_explicit",
    "Rauc.Context.C77_no_fallback",
    "Rauc.Context.C77_host",
    "Rauc.Context.C77_store",
    "Rauc.Context.C77_store_fails",
    "Rauc.Context.C77_signing",
    "Rauc.Context.C77_no_keyring",
    "Rauc.Context.C77_codesign",
    "Rauc.Context.C77_purpose_name",
    "Rauc.Context.C77_finding_directory_stays",
    "Rauc.Context.C77_finding_empty_hides"
   ],
   "note": "full iff of the configuration in effect (C77_config). Findings: --keyring leaves a configured keyring directory trusted; an empty or unreadable first file hides later ones for info and extract."
  },
  {
   "property": "C78",
   "status": "proved",
   "theorems": [
    "Rauc.ServiceStart.C78_links",
    "Rauc.ServiceStart.C78_complete",
    "Rauc.ServiceStart.C78_finding_order",
    "Rauc.ServiceStart.C78_finding_stale",
    "Rauc.ServiceStart.C78_finding_leftover"
   ],
   "note": "any hash order, failures of system calls and crash points; findings: order dependence with two running slots of a class, stale links, leftover temporary link"
  },
  {
   "property": "C79",
   "status": "proved",
   "theorems": [
    "Rauc.ServiceStart.C79_once",
    "Rauc.ServiceStart.C79_never_missed",
    "Rauc.ServiceStart.C79_slot",
    "Rauc.ServiceStart.C79_no_crash",
    "Rauc.ServiceStart.C79_finding_repeated"
   ],
   "note": "histories of starts and saves; the event log itself is C-modelled as the list of events; finding: repeated events if the file cannot be written"
  },
  {
   "property": "C80",
   "status": "partial",
   "theorems": [
    "Rauc.Cli.C80_exit",
    "Rauc.Cli.C80_options",
    "Rauc.Cli.C80_checked",
    "Rauc.Cli.C80_authentic",
    "Rauc.Cli.C80_needs",
    "Rauc.Cli.C80_complete",
    "Rauc.Cli.C80_outside_partial",
    "Rauc.Cli.C80_finding_inside",
    "Rauc.Cli.C80_finding_sibling",
    "Rauc.Cli.C80_format",
    "Rauc.Cli.C80_unknown",
    "Rauc.Cli.C80_paths"
   ],
   "note": "All of the statement is proved except 'a bundle is not created inside its own input directory': main.c:446 compares strings, so it is proved for paths without '.', '..' and double slashes (C80_outside_partial) and false otherwise (C80_finding_inside: 'rauc bundle . out.raucb'); a sibling with the same prefix is refused (C80_finding_sibling). GLib's option syntax is not modelled."
  },
  {
   "property": "C81",
   "status": "proved",
   "theorems": [
    "Rauc.Cli.C81_write",
    "Rauc.Cli.C81_only"
   ],
   "note": "The handlers themselves are C28/C29/C37. The slot status is not updated by write-slot, so an install with install-same=false may be skipped afterwards (observation in DESIGN.md)."
  },
  {
   "property": "C82",
   "status": "partial",
   "theorems": [
    "Rauc.Events.C82_route",
    "Rauc.Events.C82_config",
    "Rauc.Events.C82_kinds",
    "Rauc.Events.C82_file",
    "Rauc.Events.C82_json",
    "Rauc.Events.C82_pretty",
    "Rauc.Events.C82_message_id",
    "Rauc.Events.C82_readable_partial",
    "Rauc.Events.C82_forged_violated",
    "Rauc.Events.C82_fragment_violated",
    "Rauc.Events.C82_finding_empty"
   ],
   "note": "Routing and JSON formats are proved for every history. Partial: the formats readable and short only for events without line breaks (C82_forged_violated shows forged records otherwise); after a failed write the next record is appended to the fragment (C82_fragment_violated). Two threads writing to the same logger at the same time are not modelled."
  },
  {
   "property": "C83",
   "status": "partial",
   "theorems": [
    "Rauc.StatusView.C83_info",
    "Rauc.StatusView.C83_info_iff",
    "Rauc.StatusView.C83_info2",
    "Rauc.StatusView.C83_key",
    "Rauc.StatusView.C83_print",
    "Rauc.StatusView.C83_status_partial",
    "Rauc.StatusView.C83_abort",
    "Rauc.StatusView.C83_info_meta_violated"
   ],
   "note": "Every JSON document printed reads back, by an independent reader of RFC 8259 texts, to exactly one value with distinct member names, with the values of the manifest resp. of the service. Partial: as C69 for statuses the service cannot send completely; json and json-pretty of rauc info do not show metadata, handlers and verity parameters (C83_info_meta_violated; json-2 does)."
  },
  {
   "property": "C84",
   "status": "partial",
   "theorems": [
    "Rauc.InstallThread.C84_service",
    "Rauc.InstallThread.C84_service_ends",
    "Rauc.InstallThread.C84_alone",
    "Rauc.InstallThread.C84_alone_ends_partial",
    "Rauc.InstallThread.C84_alone_hang_violated"
   ],
   "note": "Complete for the service and the poller. Without the service (ENABLE_SERVICE off) safety is proved for all schedules, and termination for all fair schedules in which the main thread reaches its loop before the installation has ended; otherwise the program hangs (C84_alone_hang_violated)."
  },
  {
   "property": "C85",
   "status": "proved",
   "theorems": [
    "Rauc.PollStatus.C85_refines",
    "Rauc.PollStatus.C85_status",
    "Rauc.PollStatus.C85_next",
    "Rauc.PollStatus.C85_condition"
   ],
   "note": "Status and NextPoll of the Poller D-Bus interface for every history; the poller with its properties refines the one of C38/C39/C45/C54; the If-None-Match tag is that of the bundle held"
  },
  {
   "property": "C86",
   "status": "partial",
   "theorems": [
    "Rauc.ServiceCalls.C86_refines",
    "Rauc.ServiceCalls.C86_one_reply",
    "Rauc.ServiceCalls.C86_busy",
    "Rauc.ServiceCalls.C86_start",
    "Rauc.ServiceCalls.C86_legacy",
    "Rauc.ServiceCalls.C86_marked",
    "Rauc.ServiceCalls.C86_progress_partial",
    "Rauc.ServiceCalls.C86_progress_violated",
    "Rauc.ServiceCalls.C86_auto_progress_violated",
    "Rauc.ServiceCalls.C86_good_partial",
    "Rauc.ServiceCalls.C86_good_violated",
    "Rauc.ServiceCalls.C86_bad_violated"
   ],
   "note": "Progress and the knowledge about the booted slot are partial because the code violates them (witnesses proved); the rest holds for every history"
  },
  {
   "property": "C87",
   "status": "partial",
   "theorems": [
    "Rauc.StreamSession.C87_clean_partial",
    "Rauc.StreamSession.C87_not_stuck_partial",
    "Rauc.StreamSession.C87_ends_partial",
    "Rauc.StreamSession.C87_helper_partial",
    "Rauc.StreamSession.C87_closed_once",
    "Rauc.StreamSession.C87_killed_partial",
    "Rauc.StreamSession.C87_mount",
    "Rauc.StreamSession.C87_served",
    "Rauc.StreamSession.C87_others_partial",
    "Rauc.StreamSession.C87_finding_hang",
    "Rauc.StreamSession.C87_finding_socket",
    "Rauc.StreamSession.C87_finding_device",
    "Rauc.StreamSession.C87_finding_foreign",
    "Rauc.StreamSession.C87_finding_killed"
   ],
   "note": "Each clause is proved for all executions under the assumption that makes it true: nothing left needs netlink to work while the bundle is released; no hang needs that or a working umount; others' devices are safe if the kernel does not give the device number to somebody else in between; killing is safe outside the window between connecting the device and setting disconnect-on-close. Each assumption is needed: the findings are proved executions violating the clause without it."
  },
  {
   "property": "C88",
   "status": "partial",
   "theorems": [
    "Rauc.SlotMount.C88_one_mount",
    "Rauc.SlotMount.C88_unmounted_partial",
    "Rauc.SlotMount.C88_left_alone",
    "Rauc.SlotMount.C88_reload",
    "Rauc.SlotMount.C88_recorded",
    "Rauc.SlotMount.C88_activated",
    "Rauc.SlotMount.C88_writes",
    "Rauc.SlotMount.C88_finding_crash_install",
    "Rauc.SlotMount.C88_finding_crash_activate"
   ],
   "note": "Partial: that nothing stays mounted and that RAUC survives needs that unmounting works: after a failed umount the slot stays mounted for RAUC, saving the status then fails without setting an error, and its message is dereferenced (C88_finding_crash_install at install.c:1213, C88_finding_crash_activate at mark.c:159)."
  },
  {
   "property": "C89",
   "status": "partial",
   "theorems": [
    "Rauc.ArtifactService.C89_safe_partial",
    "Rauc.ArtifactService.C89_start",
    "Rauc.ArtifactService.C89_installed_partial",
    "Rauc.ArtifactService.C89_finding_use_after_free",
    "Rauc.ArtifactService.C89_finding_double_free",
    "Rauc.ArtifactService.C89_finding_phantom",
    "Rauc.ArtifactService.C89_finding_inactive"
   ],
   "note": "Proved for a repository without parents (the configuration parser refuses parents, config_file.c:1188-1192) whose directory can be opened, for all histories. Violated as shipped (theorems C89_finding_*): dangling table after a failed g_dir_open, answers that are wrong after failed installations."
  },
  {
   "property": "C90",
   "status": "partial",
   "theorems": [
    "Rauc.Feed.C90_whole",
    "Rauc.Feed.C90_prefix",
    "Rauc.Feed.C90_eof",
    "Rauc.Feed.C90_works_partial",
    "Rauc.Feed.C90_survives_partial",
    "Rauc.Feed.C90_progress",
    "Rauc.Feed.C90_tar",
    "Rauc.Feed.C90_nand",
    "Rauc.Feed.C90_finding_empty",
    "Rauc.Feed.C90_finding_orphan"
   ],
   "note": "Proved for non-empty images; violated as shipped for empty images (crash) and when the image cannot be read to its end (program left behind)."
  },
  {
   "property": "C91",
   "status": "partial",
   "theorems": [
    "Rauc.ArtifactData.C91_complete_partial",
    "Rauc.ArtifactData.C91_named",
    "Rauc.ArtifactData.C91_works",
    "Rauc.ArtifactData.C91_finding_zero",
    "Rauc.ArtifactData.C91_finding_short"
   ],
   "note": "Proved for images of the announced size; the announced size and the digest are not checked by the code (C91_finding_*)."
  },
  {
   "property": "C92",
   "status": "proved",
   "theorems": [
    "Rauc.ExtMounts.C92_view",
    "Rauc.ExtMounts.C92_protected",
    "Rauc.ExtMounts.C92_untouched",
    "Rauc.ExtMounts.C92_status",
    "Rauc.ExtMounts.C92_finding_foreign_source",
    "Rauc.ExtMounts.C92_finding_alias",
    "Rauc.ExtMounts.C92_finding_same_device"
   ],
   "note": "In use means: the mount table names the slot's device as configured. Findings: a foreign mount source containing /dev/loopN blocks all installations; symbolic links as devices are not recognised; two slots with one device"
  },
  {
   "property": "C93",
   "status": "proved",
   "theorems": [
    "Rauc.RmTree.C93_inside",
    "Rauc.RmTree.C93_removed",
    "Rauc.RmTree.C93_works",
    "Rauc.RmTree.C93_open",
    "Rauc.RmTree.C93_finding_fifo",
    "Rauc.RmTree.C93_finding_special",
    "Rauc.RmTree.C93_finding_mount"
   ],
   "note": "findings: a named pipe in an artifact tree makes the check hang, device nodes and sockets make a tree unprunable, mounts in a tree are not checked"
  },
  {
   "property": "C94",
   "status": "proved",
   "theorems": [
    "Rauc.Argv.C94_words",
    "Rauc.Argv.C94_no_words",
    "Rauc.Argv.C94_quoted",
    "Rauc.Argv.C94_handler",
    "Rauc.Argv.C94_reboot",
    "Rauc.Argv.C94_unsplittable",
    "Rauc.Argv.C94_mkfs",
    "Rauc.Argv.C94_flash",
    "Rauc.Argv.C94_tar",
    "Rauc.Argv.C94_mount",
    "Rauc.Argv.C94_casync",
    "Rauc.Argv.C94_mksquashfs",
    "Rauc.Argv.C94_fakeroot",
    "Rauc.Argv.C94_finding_blank",
    "Rauc.Argv.C94_finding_comment",
    "Rauc.Argv.C94_finding_incomplete"
   ],
   "note": "devices, images and directories are absolute paths (as the configuration makes them); texts with unquoted # at the beginning of a word are comments (finding); g_shell_parse_argv is modelled after GLib's source"
  },
  {
   "property": "C95",
   "status": "partial",
   "theorems": [
    "Rauc.ServiceLife.C95_start",
    "Rauc.ServiceLife.C95_status",
    "Rauc.ServiceLife.C95_stop",
    "Rauc.ServiceLife.C95_history",
    "Rauc.ServiceLife.C95_auto",
    "Rauc.ServiceLife.C95_finding_unfinished",
    "Rauc.ServiceLife.C95_finding_freed",
    "Rauc.ServiceLife.C95_finding_auto_busy"
   ],
   "note": "a SIGTERM during an installation ends the process in the middle of it, with freed data in use (findings); for all other histories the claim is proved"
  },
  {
   "property": "C96",
   "status": "partial",
   "theorems": [
    "Rauc.InfoText.C96_bundle",
    "Rauc.InfoText.C96_images",
    "Rauc.InfoText.C96_meta",
    "Rauc.InfoText.C96_identifies",
    "Rauc.InfoText.C96_key",
    "Rauc.InfoText.C96_unverified",
    "Rauc.InfoText.C96_finding_forged",
    "Rauc.InfoText.C96_finding_null"
   ],
   "note": "for values without line breaks; line breaks are printed as they are, and missing values look like the text (null) (findings). The verdict about the signature and the secrecy of the key hold for all manifests."
  },
  {
   "property": "C97",
   "status": "partial",
   "theorems": [
    "Rauc.StatusText.C97_slots",
    "Rauc.StatusText.C97_system",
    "Rauc.StatusText.C97_repos",
    "Rauc.StatusText.C97_mark",
    "Rauc.StatusText.C97_abort",
    "Rauc.StatusText.C97_status_partial",
    "Rauc.StatusText.C97_finding_forged",
    "Rauc.StatusText.C97_finding_null"
   ],
   "note": "for values without line breaks and escape sequences (printed as they are, finding) and slot classes whose slots have all or none a parent (C69_readable_violated); missing values that are not left out look like (null) (finding)"
  },
  {
   "property": "C98",
   "status": "proved",
   "theorems": [
    "Rauc.EndToEnd.C98_handler",
    "Rauc.EndToEnd.C98_install",
    "Rauc.EndToEnd.C98_interrupted",
    "Rauc.EndToEnd.C98_life",
    "Rauc.EndToEnd.C98_author"
   ],
   "note": "C98_author composes C61 (creation), C33 (check), C12/C68 (plans and order), C58 (handlers), C30/C49 (copies); external programs that report success are trusted to do their work (tar unpacks, mkfs leaves an empty file system); examples in Props/EndToEndEx"
  },
  {
   "property": "C99",
   "status": "proved",
   "theorems": [
    "Rauc.Display.C99_stats",
    "Rauc.Display.C99_show",
    "Rauc.Display.C99_finding_max",
    "Rauc.Display.C99_duration",
    "Rauc.Display.C99_duration_form",
    "Rauc.Display.C99_bar",
    "Rauc.Display.C99_bar_grows",
    "Rauc.Display.C99_progress_text",
    "Rauc.Display.C99_finding_bar",
    "Rauc.Display.C99_finding_no_columns"
   ],
   "note": "floating point numbers are rational numbers here; the maximum needs a value of at least G_MINDOUBLE (finding: the maximum is wrong for negative values)"
  }
 ]
}