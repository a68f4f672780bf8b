# Formal model of EIPScanner in Lean 4

This directory holds a machine-checked model of the C++ library in `/repo`
(nimbuscontrols/EIPScanner at the pinned commit) and proofs of the properties in
`properties.jsonl`. `MANIFEST.json` maps each property to theorem names.

## Layout

* `lean/Verif/Base/`   outcome types, memory oracle, byte lemmas (no project code).
* `lean/Verif/Spec/`   small specifications, written from the EtherNet/IP and CIP
  layouts and the English properties. About half do not import the model; the others use its types of
  operations, events and states to say what is observed.
* `lean/Verif/Model/`  the model, function by function; every definition cites the
  file and lines it models and says where it simplifies.
* `lean/Verif/Lemmas/` helper lemmas about the model.
* `lean/Verif/Props/`  one file per topic with the property theorems, and beside each
  theorem `example`s showing that a concrete, non-trivial case meets its hypotheses.
* `seeded/LOG.jsonl`   mutation log: what was broken on purpose in a scratch copy and
  which theorems failed.
* `tools/props.py`, `tools/props_data.py`  generate `properties.jsonl`, `MANIFEST.json`
  and the table below from one source.

## Modelling decisions

* **Bytes and machine integers.** A byte is `BitVec 8`; `CipUint`, `CipUdint`, ... are
  `BitVec 16`, `BitVec 32`, ... so wrap-around, truncation and shifts are those of the
  code. The project is compiled as C++20, so shifts of signed values are modular.
* **Outcomes.** A computation ends in `ok`, `throw e` or `ub`. Undefined behaviour
  (out-of-bounds reads of `Buffer`, dereferencing `max_element` of an empty range,
  signed overflow, over-wide shifts) is a distinct outcome, never assumed away.
* **Memory oracle.** `Buffer::operator>>` reads `_buffer[_position++]` unchecked. What a
  read past the end does is a parameter `Mem : Nat -> Option Byte`: `none` means the
  program is undefined from there on (`strict`), `some b` means the stray read
  happened to return `b` (what usually happens in practice). Theorems that hold for
  every oracle say that no stray read happens at all.
* **Exceptions and state.** Where the code mutates an object before throwing, the model
  returns the mutated state together with the exception.
* **Environment.** The peer, the kernel and the clock are inputs: scripts of system call
  results, device functions, lists of datagrams and clock readings. Theorems quantify
  over all of them; a compliant device is a separate specification.
* **Callbacks.** User callbacks are recorded as events. The send callback, which may
  change the output data, is an arbitrary choice of new output data. In
  `Model/ConnManager` a listener is one atomic step; `Model/Reentrant` splits
  `handleConnections` at every listener and lets each run of a listener make any list
  of calls of the manager. `C78_conservative` shows that the two agree when there are
  no such calls. Listeners may throw; the exception is an
  input of the model, as what they leave is.
* **Objects and pointers.** Connections live in a heap indexed by order of creation; the
  table maps keys to indices; a weak pointer can be locked while the table or the user
  holds the object. Using an erased map iterator is undefined behaviour.
* **System calls.** `Model/Connect` and `Model/Tcp` run over scripts of results of
  `socket`, `fcntl`, `connect`, `select`, `getsockopt`, `send`, `recv`, and keep the set
  of open descriptors.
* **Host.** Little-endian host with 8-bit bytes, 32-bit `int`, 64-bit `size_t` (Linux
  x86-64/AArch64). `Model/HostOrder` has the end points for both byte orders and for a one-byte
  address family (C117); that nothing else depends on the byte order is read off the code, not
  proved. `Model/Windows` has the Windows branches of sockets, discovery, `handleConnections` and error
  messages (C128), over what the documentation says of Winsock; `inet_pton` and `WSAStartup`, which the
  library leaves to the program, are not modelled. `Model/BrokenPipe` has the builds with and without `MSG_NOSIGNAL` and
  `SO_NOSIGPIPE` (C130), over what the documentation says of `SIGPIPE`.
* **Threads.** Interleaved at system calls (C100), at calls (C101), or at accesses of the shared
  counters (C107, which also has the data races on them), of the logger (`Model/LogThreads`) and of the
  bytes of a connection's output data (C127, `Model/DataThreads`), or of the table of connections (C129,
  `Model/ManagerThreads`).
  Other data races, and weak memory, are not modelled.
* **Log.** The filtering of messages, the texts listed in C109 (`Model/LogText`), the messages of
  file objects (C125, `Model/FileLog`) and those of a manager in its histories (C126, `Model/ManagerLog`).
* **C library.** `inet_aton` is a parameter, except in C110, where `Model/Inet` follows the
  documented behaviour of the GNU C library; that model is then trusted. DNS is not used by the code.
* **Allocation failure.** In sessions, requests and file objects (C120, `Model/Alloc`), connection managers (C121,
  `Model/AllocManager`), discovery and the other objects (C122, `Model/AllocObjects`), and the log (C123,
  `Model/AllocLog`); elsewhere not modelled.
* **Floating point.** In C56 and C73 an arbitrary monotone rounding of rationals, in C104 binary64
  with unbounded exponents, in C105 binary32 and binary64 with infinities, NaN and gradual underflow
  (`Model/Ieee`). The sign of zero and the payload of a NaN are not kept. `std::pow` is a parameter.

## Trusted base

* Lean 4.33.0's kernel and the axioms `propext`, `Classical.choice`, `Quot.sound`
  (checked by `#print axioms` in `tools/axioms.sh`, listed below; no other axiom, no
  `sorry`, no `native_decide`, no `bv_decide`).
* The faithfulness of the hand-written model to `/repo`, definition by definition as
  cited. The model was written by reading; the code was not executed. The unit tests
  of the repository hold of the model (below). The arithmetic of `Model/Ieee` agrees with the one of the
  processor on 140000 random operations (`lake env lean --stdin < ../tools/ieee_check.txt`).
* The specifications in `Verif/Spec`.

### Which code is modelled

Generated from the citations in `lean/Verif/Model`. Headers that only declare what the
`.cpp` file of the same name defines are left out. Within a file, what a definition
leaves out is said in its comment; in general: log calls, copy constructors and plain
getters; outside `Windows`, the Windows branches.

<!-- COVERAGE BEGIN -->
| source file | model file |
|---|---|
| `BaseObject.cpp` | `Identity`, `Parameter` |
| `BaseObject.h` | `Identity` |
| `ConnectionManager.cpp` | `AllocLog`, `AllocManager`, `ConnManager`, `Copies`, `Descriptors`, `HandleTime`, `IoConn`, `LogText`, `ManagerLog`, `ManagerThreads`, `ManagerWire`, `Network`, `OpenThreads`, `Process`, `Reentrant`, `Windows` |
| `ConnectionManager.h` | `ConnManager`, `Copies`, `Descriptors` |
| `DiscoveryManager.cpp` | `AllocObjects`, `Descriptors`, `Identity`, `LogSockets`, `RecvTime`, `Windows` |
| `DiscoveryManager.h` | `Identity`, `Windows` |
| `FileObject.cpp` | `Alloc`, `File`, `FileLog`, `FileReentrant` |
| `FileObject.h` | `File`, `FileReentrant` |
| `IOConnection.cpp` | `AllocManager`, `DataThreads`, `Descriptors`, `IoConn`, `LiveConn`, `LogText`, `ManagerLog`, `Reentrant` |
| `IOConnection.h` | `Descriptors`, `IoConn`, `LiveConn` |
| `IdentityObject.cpp` | `Accessors`, `AllocObjects`, `Identity` |
| `IdentityObject.h` | `Identity` |
| `MessageRouter.cpp` | `Alloc`, `AllocLog`, `FileLog`, `Link`, `LogText`, `Tcp`, `TcpTime` |
| `ParameterObject.cpp` | `Accessors`, `AllocObjects`, `Double`, `Ieee`, `LogText`, `Parameter` |
| `ParameterObject.h` | `Accessors`, `Ieee`, `Parameter` |
| `SessionInfo.cpp` | `Alloc`, `Connect`, `LogText`, `SessionCopies`, `Tcp`, `TcpTime`, `Threads` |
| `SessionInfo.h` | `SessionAssign`, `SessionCopies` |
| `SessionInfoIf.h` | `Tcp` |
| `cip/CipRevision.cpp` | `Buffer` |
| `cip/CipRevision.h` | `Buffer` |
| `cip/CipString.cpp` | not modelled |
| `cip/CipString.h` | `Accessors`, `Buffer`, `Identity` |
| `cip/EPath.cpp` | `Cip`, `HostOrder` |
| `cip/EPath.h` | `Cip` |
| `cip/GeneralStatusCodes.h` | `Cip`, `HostOrder`, `LogText` |
| `cip/MessageRouterRequest.cpp` | `Cip` |
| `cip/MessageRouterRequest.h` | `Cip` |
| `cip/MessageRouterResponse.cpp` | `Cip`, `LogText` |
| `cip/MessageRouterResponse.h` | `Cip` |
| `cip/Services.h` | `Cip`, `HostOrder` |
| `cip/Types.h` | `HostOrder`, `Ieee`, `Parameter` |
| `cip/connectionManager/ConnectionParameters.h` | `ConnParams` |
| `cip/connectionManager/ForwardCloseRequest.cpp` | `ConnParams` |
| `cip/connectionManager/ForwardOpenRequest.cpp` | `ConnParams` |
| `cip/connectionManager/ForwardOpenResponse.cpp` | `ConnParams` |
| `cip/connectionManager/ForwardOpenResponse.h` | `ConnParams` |
| `cip/connectionManager/LargeForwardOpenRequest.cpp` | `ConnParams` |
| `cip/connectionManager/NetworkConnectionParametersBuilder.cpp` | `ConnParams` |
| `cip/connectionManager/NetworkConnectionParametersBuilder.h` | `ConnManager`, `ConnParams` |
| `cip/connectionManager/NetworkConnectionParams.h` | `ConnParams` |
| `eip/CommonPacket.cpp` | `Eip` |
| `eip/CommonPacketItem.cpp` | `Eip` |
| `eip/CommonPacketItem.h` | `Eip` |
| `eip/CommonPacketItemFactory.cpp` | `Eip` |
| `eip/EncapsPacket.cpp` | `Eip` |
| `eip/EncapsPacket.h` | `Eip`, `HostOrder` |
| `eip/EncapsPacketFactory.cpp` | `Eip` |
| `fileObject/FileObjectEmptyState.cpp` | `Alloc`, `File`, `FileLog` |
| `fileObject/FileObjectLoadedState.cpp` | `Alloc`, `File`, `FileLog`, `FileReentrant` |
| `fileObject/FileObjectNonExistentState.cpp` | `Alloc`, `File`, `FileLog` |
| `fileObject/FileObjectState.cpp` | `Alloc`, `AllocLog`, `File`, `FileLog`, `FileReentrant`, `LogText` |
| `fileObject/FileObjectState.h` | `Alloc`, `File`, `FileLog`, `FileReentrant` |
| `fileObject/FileObjectUploadInProgressState.cpp` | `Alloc`, `File`, `FileLog`, `FileReentrant` |
| `fileObject/FileObjectUploadInProgressState.h` | `File` |
| `sockets/BaseSocket.cpp` | `AllocManager`, `ConnManager`, `Connect`, `Descriptors`, `HandleTime`, `LogSockets`, `ManagerLog`, `Network`, `RecvTime`, `Reentrant`, `SessionCopies`, `Tcp`, `TcpTime`, `Windows` |
| `sockets/BaseSocket.h` | `SessionAssign`, `SessionCopies` |
| `sockets/EndPoint.cpp` | `EndPoint`, `HostOrder`, `Inet` |
| `sockets/EndPoint.h` | `ConnManager`, `EndPoint` |
| `sockets/Platform.cpp` | `Windows` |
| `sockets/Platform.h` | `Windows` |
| `sockets/TCPSocket.cpp` | `Alloc`, `AllocLog`, `BrokenPipe`, `Connect`, `LogSockets`, `LogText`, `SessionCopies`, `Tcp`, `TcpTime`, `Threads`, `Windows` |
| `sockets/TCPSocket.h` | `SessionAssign`, `SessionCopies` |
| `sockets/UDPBoundSocket.cpp` | `ConnManager`, `Descriptors`, `Network`, `Windows` |
| `sockets/UDPSocket.cpp` | `AllocObjects`, `BrokenPipe`, `Descriptors`, `Identity`, `IoConn`, `LogSockets`, `LogText`, `Network`, `UdpUser`, `Windows` |
| `utils/Buffer.cpp` | `Buffer`, `EndPoint`, `HostOrder`, `Ieee`, `Parameter` |
| `utils/Buffer.h` | `Buffer` |
| `utils/Logger.cpp` | `AllocLog`, `Log`, `LogSockets`, `LogThreads` |
| `utils/Logger.h` | `AllocLog`, `Log`, `LogSockets`, `LogText` |
| `vendor/ra/powerFlex525/DPIFaultCode.cpp` | `PowerFlex` |
| `vendor/ra/powerFlex525/DPIFaultCode.h` | `AllocObjects`, `FaultTable` |
| `vendor/ra/powerFlex525/DPIFaultManager.cpp` | `AllocObjects`, `LogText`, `PowerFlex` |
| `vendor/ra/powerFlex525/DPIFaultManager.h` | `PowerFlex` |
| `vendor/ra/powerFlex525/DPIFaultObject.cpp` | `AllocObjects`, `PowerFlex` |
| `vendor/ra/powerFlex525/DPIFaultObject.h` | `PowerFlex` |
| `vendor/ra/powerFlex525/DPIFaultParameter.cpp` | `AllocObjects`, `PowerFlex` |
| `vendor/ra/powerFlex525/DPIFaultParameter.h` | `PowerFlex` |
| `vendor/yaskawa/mp3300iec/Yaskawa_EPath.cpp` | `Yaskawa` |
| `vendor/yaskawa/mp3300iec/Yaskawa_EPath.h` | `Yaskawa` |
| `vendor/yaskawa/mp3300iec/Yaskawa_MessageRouter.cpp` | `AllocObjects`, `ExamplesMore`, `LogText`, `Yaskawa` |
| `vendor/yaskawa/mp3300iec/Yaskawa_MessageRouterRequest.cpp` | `Yaskawa` |
<!-- COVERAGE END -->

Of `examples/`, `Examples` and `ExamplesMore` model all programs (not the `main` under `#if 0` in the Yaskawa example).

Every source file has a model of some of it; what is left out is said in the comments.

### Tests of the model

`lean/Verif/Tests` states every enabled unit test of `/repo/test` about the model, with the inputs and
expectations of the test, and has the kernel evaluate it. These are tests, not properties, and no
claim of the manifest rests on them: they check the faithfulness of the model against what the
authors of the code expect of the code. Two tests read behind the end of a vector; the model
says so, and gives the expected exception when the memory there can be read.

### Axioms of each theorem

<!-- AXIOMS BEGIN -->
* Classical.choice, Quot.sound, propext (521): `C01_typed_roundtrip`, `C01_queue`, `C02_injective`, `C03_read_defined_iff`, `C03_isValid_never_false`, `C04_long_string_roundtrip_iff`, `C05_network_byte_order`, `C05_roundtrip`, `C06_roundtrip_iff`, `C06_oversized_rejected`, `C07_total`, `C08_roundtrip`, `C08_too_many_items_lost`, `C09_classification`, `C09_no_count`, `C09_never_throws_strict`, `C12_roundtrip_iff`, `C12_class_level_lost`, `C13_classification`, `C13_accepts`, `C13_unknown`, `C14_injective`, `C15_total`, `C15_accepts`, `C16_encaps_exception_state`, `C16_response_exception_state`, `C16_response_all_or_nothing_violated`, `C17_independent`, `C18_accumulate`, `C19_forwardOpen`, `C19_largeForwardOpen`, `C19_forwardClose`, `C20_accepts`, `C20_classification`, `C21_receive`, `C21_same_stream`, `C22_in_step`, `C23_only_success`, `C24_truncated_accepted`, `C25_register`, `C25_handle_enforced`, `C26_send`, `C26_udp_send`, `C27_request`, `C27_history`, `C28_returns`, `C28_malformed`, `C29_request`, `C29_large_request`, `C29_fits`, `C30_serial`, `C30_distinct`, `C30_overflow`, `C31_p2p`, `C31_multicast`, `C31_first`, `C32_table`, `C32_hasOpen`, `C33_accepted`, `C33_refused`, `C33_destination`, `C33_collision_violated`, `C34_routes`, `C34_right_connection`, `C34_misdelivered_violated`, `C35_fixed_size`, `C35_wrong_size_ignored`, `C35_manager`, `C36_decode`, `C36_own_layout`, `C36_both_mixed`, `C36_short`, `C37_C50_transmission`, `C37_C50_manager`, `C37_sends`, `C38_never_faster`, `C38_manager`, `C39_starved`, `C39_bounded_loss`, `C39_manager`, `C40_timeout`, `C40_timeout_codes`, `C40_multiplier_zero`, `C40_manager`, `C41_only_handle`, `C41_closed_iff_removed`, `C41_silent_after_removal`, `C41_at_most_once`, `C41_closed_twice_violated`, `C42_close`, `C42_close_throws`, `C42_expired`, `C42_expired_iff`, `C42_stale`, `C42_removes_other_violated`, `C42_aborts_violated`, `C43_one_socket`, `C44_partial_order`, `C44_equivalent_iff`, `C44_not_weak_order_violated`, `C44_inconsistent_with_eq_violated`, `C45_needs_socket`, `C46_outcome`, `C46_exception_state`, `C46_ub`, `C46_robust_violated`, `C47_invented`, `C47_invented_violated`, `C48_interval`, `C48_all_waits`, `C49_waits`, `C49_quiet`, `C49_late_violated`, `C51_isolated`, `C51_frame`, `C52_discovers`, `C53_only_would_block`, `C53_error`, `C53_rejected`, `C53_short_violated`, `C54_read`, `C54_short_violated`, `C55_reads`, `C55_sound`, `C56_formula`, `C56_inverse`, `C56_inverse_back`, `C56_monotone`, `C56_monotone_back`, `C57_overflow_violated`, `C58_short_violated`, `C59_upload`, `C60_content`, `C62_begin`, `C63_listing`, `C63_sound`, `C63_throws`, `C63_number`, `C64_known`, `C64_unknown`, `C64_violated`, `C65_read`, `C65_short_violated`, `C66_roundtrip`, `C66_eq`, `C67_history`, `C67_aborts`, `C67_total`, `C67_off`, `C68_outcome`, `C68_connected`, `C68_closes`, `C68_destroy`, `C68_calls`, `C68_eintr_violated`, `C71_destructor`, `C72_late_reply`, `C73_values`, `C73_set_get`, `C73_set`, `C74_reads`, `C74_short_violated`, `C75_malformed`, `C76_drive`, `C76_twice`, `C77_failed`, `C77_made`, `C77_life`, `C78_isolated`, `C78_table`, `C78_ticked_once`, `C78_all_ticked`, `C78_removed`, `C78_closed_removed`, `C78_silent_after_removal`, `C78_closed_once`, `C78_transmission`, `C78_never_faster`, `C78_timeout`, `C78_conservative`, `C78_self_close`, `C78_harmless`, `C78_harmless_receiving`, `C78_close_in_close_listener_violated`, `C78_close_in_send_listener_violated`, `C78_handle_in_close_listener_violated`, `C78_reopen_in_close_listener_violated`, `C78_new_connection_removed_violated`, `C78_out_of_order_violated`, `C79_answer`, `C79_grants`, `C79_identity`, `C79_parameter`, `C79_update`, `C79_faults`, `C79_upload`, `C80_path_eq`, `C81_silent_closed`, `C81_loop_ends`, `C81_fed_open`, `C81_all_kept`, `C82_open_at_target`, `C82_agree`, `C82_orphan_stays`, `C82_failed_open`, `C82_weak_pointers`, `C82_orphan_violated`, `C82_collision_violated`, `C82_timeout_violated`, `C83_history`, `C83_bytes`, `C83_replies`, `C83_life`, `C84_exception`, `C84_listener_ends_call`, `C84_receive`, `C84_nothing_sent`, `C84_close_runs`, `C84_starves`, `C84_dead_again`, `C84_closed_twice_violated`, `C84_removal_lost_violated`, `C84_revived_violated`, `C84_starved_violated`, `C85_descriptors`, `C85_count`, `C85_failed_open`, `C85_nothing_left`, `C85_destroyed`, `C85_refines`, `C85_sends`, `C85_own`, `C85_bind`, `C86_defined`, `C86_other_operations`, `C86_watched`, `C86_posix`, `C86_full_violated`, `C87_returns`, `C87_when`, `C87_bounded_violated`, `C87_forever_violated`, `C88_refines`, `C88_in_time`, `C88_gives_up`, `C88_bounded`, `C88_within_timeout_violated`, `C88_forever_violated`, `C89_in_time`, `C89_own_reply_violated`, `C90_identity`, `C90_parameter`, `C90_update`, `C90_file`, `C90_file_begin`, `C90_file_step`, `C90_fault`, `C90_faults`, `C90_fault_object`, `C91_identity_silent`, `C91_parameter_silent`, `C91_update_silent`, `C91_upload_silent`, `C91_faults_silent`, `C91_own_value_violated`, `C91_upload_goes_on_violated`, `C92_packet`, `C92_item`, `C92_revision`, `C93_time`, `C93_one_request`, `C93_same`, `C93_open_silent`, `C93_close_silent`, `C93_own_connection_violated`, `C94_receives`, `C94_time`, `C94_loop`, `C94_sends`, `C94_starved_violated`, `C95_undefined_iff`, `C95_asserts_iff`, `C95_proper`, `C96_explicit`, `C96_file`, `C96_file_content`, `C96_file_forever_violated`, `C96_file_refused_violated`, `C96_parameters_none`, `C96_parameters`, `C96_parameters_small_violated`, `C96_parameters_class`, `C96_parameters_sound`, `C97_program`, `C97_uncaught_violated`, `C97_defined`, `C97_request`, `C97_sends`, `C98_refines`, `C98_others`, `C98_numbers`, `C98_distinct`, `C98_destroy`, `C98_silent`, `C98_own_close`, `C98_foreign`, `C98_incarnation_violated`, `C98_foreign_close_violated`, `C99_parameter`, `C99_limit`, `C99_limit_kept`, `C99_fresh`, `C99_number_violated`, `C100_locked`, `C100_order`, `C100_gives`, `C100_handle`, `C100_late`, `C101_order`, `C101_one_opener`, `C101_opens_violated`, `C102_stays`, `C102_uploads`, `C103_read`, `C103_write`, `C103_yaskawa`, `C103_yaskawa_throws`, `C103_short_violated`, `C103_whole`, `C103_identity`, `C103_discovery`, `C104_nearest`, `C104_tie`, `C104_rounding`, `C104_error`, `C104_accuracy`, `C104_limit`, `C104_exact`, `C104_range`, `C104_off_by_one_violated`, `C104_wide_violated`, `C105_double`, `C105_float`, `C105_get`, `C105_set`, `C105_real_bits`, `C105_lreal_bits`, `C105_real_same`, `C105_lreal_same`, `C105_real`, `C105_lreal`, `C105_special`, `C105_set_lreal`, `C105_set_real`, `C105_monotone`, `C105_sane`, `C105_drive`, `C105_divisor_zero_violated`, `C105_multiplier_zero_violated`, `C105_set_infinite_violated`, `C105_lreal_overflow_violated`, `C106_look`, `C106_careful`, `C106_careful_calls`, `C106_restart`, `C106_raise`, `C106_begin_raise`, `C106_after_sync_violated`, `C106_begin_again_violated`, `C107_locked`, `C107_distinct`, `C108_reads`, `C108_none_lost`, `C108_sender`, `C108_stranger_violated`, `C108_shared_port_violated`, `C109_ids`, `C109_request`, `C109_additional`, `C109_status_character`, `C109_status_violated`, `C109_close_violated`, `C109_file`, `C109_file_violated`, `C109_refused`, `C109_opened`, `C109_opened_violated`, `C109_closed`, `C109_drop`, `C109_console`, `C109_sockets`, `C110_hosts`, `C110_dotted`, `C110_round`, `C110_name_violated`, `C110_padded_violated`, `C111_defined`, `C111_kept`, `C111_locked`, `C111_in_turn`, `C111_mixed_violated`, `C111_race_violated`, `C111_destroyed_violated`, `C112_order`, `C112_reply`, `C112_length_violated`, `C113_data`, `C114_objects`, `C114_own`, `C114_pointers`, `C114_handler`, `C114_destroy`, `C114_destroyed_violated`, `C114_deaf_violated`, `C114_close_violated`, `C114_twice_violated`, `C114_assign`, `C114_swap_violated`, `C115_own`, `C115_wire`, `C115_destroy`, `C115_stale_violated`, `C115_vector_violated`, `C115_next_violated`, `C115_file_violated`, `C116_as_arrived`, `C116_number_ignored`, `C116_filter`, `C116_order_violated`, `C116_replay_violated`, `C117_system`, `C117_roundtrip`, `C117_written`, `C117_read`, `C117_big_violated`, `C117_bsd_violated`, `C118_same`, `C118_leak_violated`, `C118_reconnect_violated`, `C119_packet`, `C119_reply`, `C119_taken`, `C119_io`, `C119_transfer`, `C119_upload_violated`, `C119_discovery_violated`, `C120_plenty`, `C120_request`, `C120_in_step`, `C120_step_violated`, `C120_header_violated`, `C121_or_same`, `C121_keeps`, `C121_table`, `C121_open`, `C121_nothing`, `C121_lost`, `C121_unsent`, `C121_isolated`, `C121_numbers`, `C121_forward`, `C121_apart_violated`, `C121_closed_twice_violated`, `C121_orphan_violated`, `C122_faults`, `C122_kept`, `C122_retry`, `C122_once_violated`, `C123_messages`, `C123_request`, `C123_end_violated`, `C123_number_violated`, `C123_request_violated`, `C124_receive`, `C124_discover`, `C124_transparent`, `C124_short_send`, `C124_notes`, `C124_tcp`, `C124_lost_violated`, `C124_hidden_violated`, `C125_same`, `C125_states`, `C125_balanced`, `C125_failed`, `C125_requests`, `C125_failures`, `C125_ignored`, `C125_resync`, `C125_packets`, `C125_again_violated`, `C125_loaded_violated`, `C125_thrown_violated`, `C125_status_violated`, `C126_open`, `C126_has`, `C126_opened_violated`, `C126_closed_violated`, `C126_timedOut_violated`, `C126_serial_violated`, `C128_handle`, `C128_connect`, `C128_destroy`, `C128_bound`, `C128_interval`, `C128_limit`, `C128_limit_same`, `C128_discover_same`, `C128_served`, `C128_no_message`, `C128_handle_violated`, `C128_bound_violated`, `C128_interval_violated`, `C128_many_violated`, `C129_locked`, `C129_wrong_violated`, `C130_alive`, `C130_exact`, `C130_descriptors`, `C130_killed_violated`, `C130_unreported_violated`
* Quot.sound, propext (102): `C04_short_string_roundtrip_iff`, `C08_layout`, `C08_truncated`, `C10_sendRRData`, `C11_layout`, `C11_size`, `C14_layout`, `C14_decode`, `C17_order_irrelevant`, `C18_last_write_wins_violated`, `C24_receive_short`, `C33_multiplier`, `C36_own_layout_violated`, `C40_overflow_violated`, `C40_gap_violated`, `C47_zeros`, `C47_cut`, `C52_wellformed`, `C53_no_socket`, `C53_short_send`, `C55_requests`, `C55_shifted_violated`, `C58_request`, `C58_updates`, `C58_refused`, `C58_router`, `C59_chunks`, `C61_count`, `C62_create`, `C65_failed`, `C66_layout`, `C66_request`, `C66_router`, `C66_expand`, `C66_text`, `C68_leak_violated`, `C68_fdset_violated`, `C69_chain`, `C69_chained_settings_lost`, `C70_constants_agree`, `C70_large_is_shifted`, `C70_transport`, `C80_path_text`, `C80_endpoint_equivalence`, `C80_endpoint_host`, `C80_endpoint_address`, `C80_endpoint_spelling_violated`, `C80_endpoint_port_violated`, `C83_readable`, `C87_refines`, `C87_calls`, `C87_descriptor`, `C90_request_same`, `C96_file_silent_violated`, `C100_late_violated`, `C102_sync`, `C103_fill`, `C103_discovery_ends`, `C106_transfer`, `C106_begin`, `C106_transfer_done`, `C106_drop`, `C107_same_numbers_violated`, `C107_repeated_violated`, `C109_tick`, `C109_recv`, `C113_defined`, `C113_self_violated`, `C113_refines`, `C113_latest`, `C113_empty_violated`, `C116_filter_violated`, `C117_little`, `C117_bsd_any_violated`, `C119_discovery`, `C120_retry`, `C122_objects`, `C122_update`, `C122_discover`, `C122_found_violated`, `C123_plenty`, `C123_hidden`, `C123_survives`, `C123_first_violated`, `C127_locked`, `C127_whole`, `C127_norace`, `C127_bytes`, `C127_race_violated`, `C127_torn_violated`, `C127_moved_violated`, `C128_no_socket`, `C128_discover`, `C128_handle_same`, `C128_message`, `C128_long_violated`, `C128_stranger_violated`, `C129_race_violated`, `C129_dangling_violated`, `C129_abort_violated`, `C130_same`, `C130_leak_violated`
* no axioms (4): `C08_item_view`, `C29_carry_violated`, `C63_command`, `C124_levels`
* propext (55): `C02_little_endian`, `C04_written_bytes`, `C06_layout`, `C08_oversized_item_loses_data`, `C10_registerSession`, `C10_unRegisterSession`, `C10_listIdentity`, `C11_default_path_violated`, `C14_wide_id_aliases`, `C16_all_or_nothing_violated`, `C25_registered_violated`, `C26_reports_failure_violated`, `C54_request`, `C54_failed`, `C58_no_router_violated`, `C60_two_last_violated`, `C61_one_call`, `C61_error_violated`, `C61_after_completion_violated`, `C62_begin_other`, `C62_transfer_other`, `C62_empty_violated`, `C66_cut_violated`, `C67_fatal_violated`, `C71_never_terminates_violated`, `C80_path_equivalence`, `C92_item_violated`, `C99_identity`, `C100_requests`, `C100_swapped_violated`, `C100_torn_violated`, `C100_half_violated`, `C102_code`, `C102_again_violated`, `C106_gone_violated`, `C106_nested_violated`, `C107_one_thread`, `C107_race_violated`, `C118_follows`, `C120_router`, `C120_begin`, `C120_file`, `C120_sync`, `C120_create_plenty`, `C120_file_plenty`, `C120_destroy_violated`, `C120_destroy_file_violated`, `C120_file_violated`, `C122_devices`, `C122_yaskawa`, `C123_prefix`, `C126_levels`, `C126_levels_violated`, `C128_timeout_violated`, `C129_norace`
<!-- AXIOMS END -->

## Findings

Places where the code does not do what a user would expect. Each is a theorem with a
concrete witness or a general refutation; the other theorems of the same property say
exactly when the expectation holds. Generated from the comments of the theorems.

<!-- FINDINGS BEGIN -->
* `C11_default_path_violated`: C11. The default constructed path breaks this: it declares no words but packs a class segment.
* `C16_all_or_nothing_violated`: C16. The expectation "a failed expand leaves the object unchanged" is false.
* `C16_response_all_or_nothing_violated`: C16. So decoding is not all-or-nothing: a reused response object reports the status of a message that was rejected.
* `C18_last_write_wins_violated`: C18. So setting a field again does not replace it: MULTICAST (1) then P2P (2) gives RESERVED (3).
* `C25_registered_violated`: C25. The claim "construction succeeds only if the target granted a session" is false: a peer that closes at once yields a session with handle 0, since the missing reply reads as zeros.
* `C26_reports_failure_violated`: C26. The claim "Send returns only when all bytes were handed over" is false: the system call fails, no byte leaves, and `Send` returns.
* `C29_carry_violated`: C29 violated beyond the size field: asking for 510 bytes with a class 1 connection turns the fixed size connection into a variable size one of 0 bytes.
* `C33_collision_violated`: C33 violated: the target accepts a second connection whose identifier has the same low 16 bits; the caller gets a pointer that is already expired.
* `C34_misdelivered_violated`: C34 violated: data for identifier 0x990001 is delivered to connection 0x10001.
* `C36_own_layout_violated`: C36. The natural claim, that a peer using this scanner's layout is always understood, is false: run header 1 and count 5 arrive as header 0x10005, count 0.
* `C40_gap_violated`: C40. Without the bound on the gap the claim fails: after 4294968 ms of silence (72 minutes without a tick) the counter has wrapped and the connection stays open.
* `C40_overflow_violated`: C40. Without the bound on the product the claim fails: multiplier 128 and an interval of 2^25 µs (33.5 s) give limit 0, and one millisecond closes.
* `C41_closed_twice_violated`: C41 violated without the assumption on `sendto`: connection 0 times out and is told so; connection 1 transmits only part of its datagram, which throws, so connection 0 stays in the table and is told again by the next call.
* `C42_aborts_violated`: C42 violated for a stale pointer: closing a connection that timed out aborts.
* `C42_removes_other_violated`: C42 violated for a stale pointer: connection 0 times out while the user keeps it; connection 1 is opened with the same low 16 bits; closing 0 removes 1.
* `C44_inconsistent_with_eq_violated`: C44 violated: different end points are equivalent, whatever their hosts are, as soon as the ports are the same; so `std::map` keyed by end points merges all hosts.
* `C44_not_weak_order_violated`: C44 violated as a strict weak order: equivalence is not transitive.
* `C46_robust_violated`: C46 violated for robustness: in every state, whatever is open, an empty datagram makes the handler throw and the two bytes 1, 0 make it read out of bounds.
* `C47_invented_violated`: C47: only the first of two bytes of data arrives (and the datagram ends there); the connection is given a zero for the other.
* `C49_late_violated`: C49 violated: the call does not return at its deadline. Take any timeout, any number `n` of datagrams that each are handled without a change of the manager (such as datagrams for an unknown connection), and any clock readings after the deadline. Every one of the `n` datagrams is still handled, with one more wait each, before the first tick.
* `C53_short_violated`: C53. A datagram that is not an answer, or has an item without a complete identity record, is read out of bounds.
* `C54_short_violated`: C54. A success reply that is too short is read out of bounds (the intended exception is never thrown).
* `C55_shifted_violated`: C55. The four answers are concatenated: a device that answers the multiplier with four bytes (3, 0, 0, 0) instead of two gets divisor 0 and a wrong base and offset.
* `C57_overflow_violated`: C57. The conversion to actual values is undefined exactly if the parameter is scalable and multiplier times base is 2^31 or more.
* `C58_no_router_violated`: C58. An object made without a session has no router: updating it is undefined.
* `C58_short_violated`: C58. A success answer that is too short is read out of bounds.
* `C60_two_last_violated`: C60. A file of two bytes, and twice a last packet with one byte: the first call of the handler reports the wrong size, the second one success and the two payloads together.
* `C61_after_completion_violated`: C61. After the upload is complete the next call asks for the last packet again; if the device sends it with an empty payload the handler is told about the same file again.
* `C61_error_violated`: C61. A device that answers every transfer with an error: however often `handleTransfers` is called it returns true, and calls the handler.
* `C62_empty_violated`: C62. An empty answer with status success is read out of bounds.
* `C64_violated`: C64. Code 1 is not described. A drive with the faults 4, 1, 13: the call throws after the first one, nothing is cleared, and it will be the same at every further call.
* `C65_short_violated`: C65. An answer with success that is shorter is read beyond its end.
* `C66_cut_violated`: C66. A 16-bit identifier in a path is cut without an error: class 0x0104 becomes class 4, and of class 0x0100, instance 1 nothing is left.
* `C67_fatal_violated`: C67. A finding: a message of level OFF ends the process unless all logging is off or the appender is one of the user; and a null appender is called through when a message passes.
* `C68_eintr_violated`: C68. A finding: a signal during the wait is reported as a timeout; the wait is not gone on with, whatever would come next.
* `C68_fdset_violated`: C68. A finding: with a descriptor that does not fit an `fd_set` waiting is undefined behaviour.
* `C68_leak_violated`: C68. A finding: when switching to non-blocking mode fails, the constructor throws and the descriptor stays open for good, whatever the error.
* `C71_never_terminates_violated`: C71. The claim "destroying a session never terminates the process" is false.
* `C74_short_violated`: C74. With fewer bytes it reads out of bounds.
* `C78_close_in_close_listener_violated`: C78 violated: a close listener that calls `forwardClose` for its own connection, as a user would to tell the target.
* `C78_close_in_send_listener_violated`: C78 violated: a send listener that calls `forwardClose` for its own connection.
* `C78_handle_in_close_listener_violated`: C78 violated: a close listener that calls `handleConnections`; the nested call removes the entry the outer one is at.
* `C78_new_connection_removed_violated`: C78 violated: connection 0 has timed out; the send listener of connection 1 closes 0 and opens it again with the same T→O identifier; the new connection, 2, is open and is then removed with the key of 0, without its close listener having run.
* `C78_out_of_order_violated`: C78 violated: a send listener that calls `handleConnections` makes its own connection transmit number 2 before number 1.
* `C78_reopen_in_close_listener_violated`: C78 violated: a close listener that opens the connection again; the target gives the same T→O identifier, whose key is still taken, and the pointer returned is expired from the start.
* `C80_endpoint_port_violated`: C80. A port outside 0 to 65535 is not refused: it addresses the port with the same low 16 bits.
* `C80_endpoint_spelling_violated`: C80. Two spellings of one address are different end points, though the system cannot tell them apart.
* `C82_collision_violated`: C82 violated: a target whose second identifier has the same low 16 bits.
* `C82_orphan_violated`: C82 violated: the socket for the connection cannot be made after the target accepted; the target has a connection, the caller gets an exception and no pointer, and nothing is sent to close it (see `C82_orphan_stays`).
* `C82_timeout_violated`: A timeout is not reported to the target: no forward close is sent.
* `C84_closed_twice_violated`: C84, C41 violated: a close listener that throws leaves the connection open; at the next call it runs again. If it then returns the connection is removed.
* `C84_removal_lost_violated`: C84 violated: the exception of the send listener of connection 1 makes the manager forget that it has closed connection 0, whose close listener returned; it runs again at the next call.
* `C84_revived_violated`: C84 violated: a connection whose close listener has run receives again, sends again and stays open.
* `C84_starved_violated`: C84 violated: while the close listener of connection 0 throws, connection 1, which should send every 10 ms and has had no data for 900 ms, neither sends nor is closed.
* `C86_full_violated`: C86. A forward open that makes the implicit socket while the descriptors 0 to 1022 are open succeeds, and from then on every call of `handleConnections` is undefined, even when all other descriptors have been closed.
* `C87_bounded_violated`: C87, false of the code: the timeout bounds the time of discovery. Answers that follow each other within the timeout keep it going, for ever so many of them.
* `C87_forever_violated`: C87. With a timeout of zero or less there is no limit: whatever answers arrive, discovery does not return, and its socket stays open.
* `C88_forever_violated`: C88. A timeout of zero or less is no timeout: if the reply never becomes complete, the request never returns.
* `C88_within_timeout_violated`: C88. "A request ends within its timeout" is false: a target that sends its (right) reply one byte per timeout makes the request take as many timeouts as the reply has bytes, and it succeeds.
* `C89_own_reply_violated`: C89. "A request gets its own reply or fails" is false. The target answers every request with a good reply; only the reply to the first comes after the timeout. `later` pairs every later request with the reply to the request before it, which is there in time for this one; `more` is the reply to the last request, and whatever follows. Then the first request fails with EAGAIN, and every later request returns, as a success, the reply to the one before it.
* `C91_own_value_violated`: C91. "The value of a parameter object is a value of its parameter" is false. Two parameter objects use one session. The update of the first fails with EAGAIN, because the reply comes after the timeout; later the other object is updated, at `later`, when that reply has come. Then the value in the other object is the one that the target sent for the first.
* `C91_upload_goes_on_violated`: C91. "After an exception the upload can go on" is false. The target answers every request for a packet with that packet. Its reply comes late once: the step ends with EAGAIN. The next step asks again for the same packet, takes the late reply and goes on; the step after that finds the second reply for the same packet where the next packet should be, calls the handler with an error and ends the upload.
* `C92_item_violated`: C92. Without the bound that is false: an item with a multiple of 65536 bytes compares unequal to the empty item of its type, and is the same bytes on the wire.
* `C93_own_connection_violated`: C93. "The connection that a forward open returns is the one that the target opened for it" is false, and closing it closes another one. Two connections are opened over one session, in any reachable state of a manager. The target accepts both; its reply to the first comes after the timeout, and the first call throws EAGAIN. The second call, made when that reply has come, takes it: the connection it returns has the identifier and serial number of the first, and the path of the second. Closing it takes the reply to the second open for its own, asks the target to close the first, and leaves the manager with the connections it had before: the target keeps the second, which the manager never knew.
* `C94_starved_violated`: C94 violated: calling `handleConnections` with a timeout of one millisecond while a datagram that belongs to no connection arrives every `gap` nanoseconds, less than a millisecond, the calls go on for as long as one likes and nothing happens to any connection: it neither sends nor times out.
* `C96_file_forever_violated`: C96. The loop has no limit: a device that starts the upload and then answers every transfer with an error keeps the program running, however long it is observed, and nothing is written.
* `C96_file_refused_violated`: C96. Nor does it if the device has the file and refuses to send it: the refusal goes to the handler, which does nothing with it.
* `C96_file_silent_violated`: C96. The exit code 0 does not say that a file was written: a device without the file, or with an empty one, gets one request, nothing is written, and the program ends with exit code 0.
* `C96_parameters_small_violated`: C96. If the first parameter has a value of one byte, or of none, the program reads beyond it.
* `C97_uncaught_violated`: C97. When an exception leaves the program it is the last call that threw it. If that was the open, nothing is open. If it was a wait or the close, the connection is still open in the manager; after a wait no close request was sent.
* `C98_foreign_close_violated`: C98 violated: the program closes the connection of the second manager through the first. The process is aborted; without assertions nothing is removed; and if the target of the second connection chose an identifier with the same low 16 bits, the connection of the first manager is removed and the one to be closed stays open.
* `C98_incarnation_violated`: C98 violated: the random number does not tell managers apart. The second manager drew 9, but its connections are numbered above the 5 that the first one drew.
* `C99_number_violated`: C99. `getParameter()` of an object made by hand is 0, not the instance it stands for, and no setter changes that.
* `C100_half_violated`: C100 violated: if the timeout expires in the middle of a reply, the next call of another thread takes the rest of it for a header.
* `C100_late_violated`: C100 violated: a lock does not keep late replies apart. The call of thread 0 times out before its reply comes; thread 1, which takes the lock then, gets that reply as its own.
* `C100_swapped_violated`: C100 violated: two threads that use one session at the same time. Both have sent before either receives, and the second receives first: each gets the reply to the request of the other, and nothing tells them.
* `C100_torn_violated`: C100 violated: two threads receive at the same time. Thread 1 takes the data of the reply to thread 0 for a header and returns a packet that the peer never sent; thread 0 returns its header with the end of both replies.
* `C101_opens_violated`: C101 violated: if two managers open connections in the other order, their connections have other numbers. So what a manager sends depends on the opens of other managers.
* `C102_again_violated`: C102 violated: a program that uploads a file and begins another upload with the same object, although the device would send the file. `beginUpload` makes no request, its handler is never called, and `handleTransfers` asks for the last packet of the first file and calls the first handler again.
* `C103_short_violated`: C103. A success reply that is too short makes the Yaskawa example read out of bounds.
* `C104_off_by_one_violated`: C104. It happens: with multiplier 1, divisor 3 and one decimal the limit set to the engineering value of 11 is 10.
* `C104_wide_violated`: C104. With 64 bits the largest value of an object without scaling cannot even be set to its own engineering value: the conversion is undefined.
* `C105_divisor_zero_violated`: C105. If the device reports a divisor of zero the engineering value is not a number of the device: NaN if the scaled value is zero, else infinite with its sign.
* `C105_lreal_overflow_violated`: C105. A `CipLreal` that is huge can become infinite though its engineering value is a `double`: here 2^1023, with multiplier and divisor 2.
* `C105_multiplier_zero_violated`: C105. If the device reports a multiplier or a base of zero, setting a limit of an integer type is undefined, whatever the value: the division gives an infinite value or NaN, which is then converted.
* `C105_set_infinite_violated`: C105. Setting a limit of an integer type to an infinite value or to NaN is undefined.
* `C106_after_sync_violated`: C106. A handler is called, calls `SyncState`, and the device says the state: if now the handler uses what it has captured, or, called with status success, its argument, it uses what is destroyed.
* `C106_begin_again_violated`: C106. A handler that calls `beginUpload` starts nothing: the object is still uploading, until `SyncState`.
* `C106_gone_violated`: C106. After a handler has destroyed the object every use of it is undefined: each of its functions, destroying it again, and, in a handler called by `handleTransfers`, what it has captured and the argument of a success.
* `C106_nested_violated`: C106. A handler that transfers changes its argument meanwhile: here the only packet is appended again.
* `C107_race_violated`: C107 violated: whenever two threads have connections to open, there is a schedule with a data race, which makes the program undefined.
* `C107_repeated_violated`: C107 violated: a thread that uses its own manager alone can be given the same identifier for two of its own connections, because a thread with another manager writes the counter back.
* `C107_same_numbers_violated`: C107 violated: even if the reads and writes of the counters are taken as atomic, two threads that each open one connection can be given the same serial number and the same identifier.
* `C108_shared_port_violated`: C108 violated: two managers in a process, one connection each. All datagrams of both targets are given to the socket of the second manager, as a system does that prefers the socket bound last. The connection of the first manager receives nothing and is closed for want of data, although its target has sent in time.
* `C108_stranger_violated`: C108 violated: a datagram of a stranger is delivered as the data of the target, and a connection whose target is silent is not closed as long as the stranger sends. (The limit is 40 ms; the target never sends anything.)
* `C109_close_violated`: The same for the message of a close request that is refused.
* `C109_file_violated`: But nothing in the text says so: read as a decimal number, as the identifiers of connections and parameters are, it is not the number of the file, for all files from 10 on.
* `C109_opened_violated`: "Open IO connection" may be the last that is heard of a connection: if no socket can be made, the message is written and `forwardOpen` throws.
* `C109_status_violated`: So the number after the label is never the status.
* `C110_name_violated`: C110 violated: a text that does not begin with a digit, such as the name of a host, gives 0.0.0.0 without an error.
* `C110_padded_violated`: C110 violated: a text with leading zeros gives the address that it shows only if each of its numbers is less than 8 or has three digits without the zeros: the others are taken for octal, or the address is 0.0.0.0.
* `C111_destroyed_violated`: C111 violated: if a thread sets the appender while another logs, the appender can be used after it has been destroyed.
* `C111_mixed_violated`: C111 violated: whenever two threads have messages to show on the console, they can be written so that the output is not, and does not become, a sequence of whole lines, nor the beginning of one.
* `C111_race_violated`: C111 violated: a thread that sets the level, or the appender, while another logs makes a data race.
* `C112_length_violated`: C112 violated: the length of a datagram is not seen. Two datagrams are told apart by a call that asks for `n` bytes only if they differ, with zeros after their ends, in the first `n` bytes.
* `C113_empty_violated`: C113 violated: after an empty `std::function` has been set as listener — `setSendDataListener(nullptr)`, say, in order to have none — each event for it ends in `std::bad_function_call`, which the program gets from `handleConnections`; and until another is set, nothing is sent.
* `C113_self_violated`: C113 violated: a function of the user that sets the listener from which it is called, and then uses captured variables, is undefined behaviour whenever it is called.
* `C114_close_violated`: **C114 violated (close).** `forwardClose` of a connection at one manager leaves it in the map of every other one that has it: the object lives on, and the other manager goes on ticking it, so that it goes on sending and times out later.
* `C114_deaf_violated`: **C114 violated (deaf).** A connection opened through a manager that uses the socket that another one made, and never made one, is never given any data, whatever is done afterwards and whatever arrives, unless something is assigned to a manager that made a socket: the handler looks in the map of the manager that made the socket, and this one does not have the connection.
* `C114_destroyed_violated`: **C114 violated (the maker is gone).** A manager uses the socket that another one made, and this one was destroyed, as happens when a vector of managers grows or a manager is returned by copy: the first datagram that arrives, if it is one of any connection, known or not, is looked up in the map of a manager that does not exist. A wait without a datagram is not affected.
* `C114_swap_violated`: **C114 violated (swap).** After two managers, each of which made its socket, were swapped, each has the connections of the other, but whatever arrives while one of them is served goes to no connection that it has, unless it had it before.
* `C114_twice_violated`: C114 violated: a connection that times out is closed once for every manager that has it.
* `C115_file_violated`: C115. The same with a file: when the rest of the process has opened something that got the number of the closed descriptor, destroying the copy closes that.
* `C115_next_violated`: C115. And later: after the original was destroyed, the next session that is constructed gets its descriptor, if all lower ones are open. The requests of the copy then go, with the old handle, to the new device; destroying the copy sends the new device the end of a session with the old handle and closes the new connection: the new session, of which no object was destroyed, then throws `EBADF` at every request.
* `C115_stale_violated`: C115. What the code does otherwise, in any history: after one object of a connection was destroyed, no request of another one reaches that connection. It fails with `EBADF`, or with `ENOTSOCK` when the number now is that of a file, or else it is sent, with the old handle, on the connection of another session.
* `C115_vector_violated`: C115. In particular right after: a session is copied, the copy or the original is destroyed, as by a `vector` of sessions that grows; the next request of the other one throws `EBADF`, and nothing is sent.
* `C116_filter_violated`: C116 violated without the bound: when 2^15 numbers are missing, the newest data are dropped; and data that are 2^15 + 1 numbers old are taken for new.
* `C116_order_violated`: C116 violated: after 1 and 3, the data of 2 arrive, twice; the listener is given them, twice, as the last.
* `C116_replay_violated`: C116 violated: an old datagram that keeps arriving is as good as a live target. One datagram of a target that has long stopped, received again and again, keeps the connection open for any number of calls, and its data are handed over each time.
* `C117_big_violated`: C117. On a big-endian host a correct item is taken right only when its port has two equal bytes and its octets read the same backwards.
* `C117_bsd_any_violated`: C117. On a little-endian host with a one-byte family, no sixteen bytes at all give an end point with a family.
* `C117_bsd_violated`: C117. On a host with a one-byte family, even an end point that it has written itself comes back without its family.
* `C118_leak_violated`: C118. A user may expect that the session which is assigned to is ended. But if it is the only object of its connection, then whatever is done afterwards, nothing is sent on this connection again, not even the end of the session, and its descriptor stays open. (No copy of a session that has ended is left: it could close the descriptor by accident, C115.)
* `C118_reconnect_violated`: C118. `session = SessionInfo(host, port)`, to connect again: the new session is registered, and ended as soon as the temporary is destroyed, which closes its connection. The session assigned to then throws `EBADF` at every request. So in any history, for any session object.
* `C119_discovery_violated`: C119. It has no bound: the same answer of one device is listed each time it comes.
* `C119_upload_violated`: C119. The announced size of a file does not bound what is held of it. Against a device that announces any size, for example none, and has always one more packet, each call of `handleTransfers` returns true, holds one more packet and tells the handler nothing.
* `C120_destroy_file_violated`: C120. "A file object can always be destroyed": not during or after an upload. In the other states it can.
* `C120_destroy_violated`: C120. "An object can always be destroyed" is false: without memory the end of a session terminates the process, with the session still registered at the device.
* `C120_file_violated`: C120. "A file is reported as uploaded only if its packets arrived" is false when memory runs out: the packet is of the wrong size, the exception comes before the handler is called, and when the client tries again the packet is taken twice; the handler gets a file that the device does not have, with status success.
* `C120_header_violated`: C120. And for the third: the data of the reply is taken for a frame. Whoever determines the data of the reply determines what the next request returns.
* `C120_step_violated`: C120. "After an exception the session can be used" is false for the second place: every request made after it gets the reply to the request before.
* `C121_apart_violated`: C121 violated: when memory was missing for the address of a datagram, the sequence number and the sequence count of a connection are no longer equal.
* `C121_closed_twice_violated`: C121 violated: when memory is missing to note that a connection is to be removed, its close listener is called again by the next call.
* `C121_orphan_violated`: C121 violated: when memory is missing after the reply, the device has a connection that the manager does not know and that the user has no pointer to.
* `C122_found_violated`: C122. "The devices that were found are returned" is false: a device has answered, memory runs out for the next receive, and `discover` throws; with memory it returns the device.
* `C122_once_violated`: C122. "Every fault is reported once" is false: if memory runs out when the second fault is asked for, and the program tries again, the first is reported twice.
* `C123_end_violated`: C123. "A call that finds no memory throws" is false: for every message of the library that is shown, if there is no memory for the copy of its text, the process ends, and nothing is printed.
* `C123_first_violated`: C123. The same for the first message on the console, if there is no memory for the names of the levels.
* `C123_number_violated`: C123. "The numbers in the log are right" is false: for every session whose handle has two digits or more, memory may be missing so that the message tells the handle without its last digit, and nothing else is wrong with it.
* `C123_request_violated`: C123. "A request that finds no memory throws" is false at the level that a program has by default: every request may end the process before it is sent.
* `C124_hidden_violated`: C124. "An error of the socket is thrown" is false at level TRACE: if the appender leaves the code of a timeout, a discovery that fails returns what it has.
* `C124_lost_violated`: C124. "A discovery returns the devices that answered" is false at level TRACE: whatever devices have answered, if the appender changes the `errno` of the timeout that ends a discovery, the discovery throws.
* `C125_again_violated`: C125. An upload that is begun while another is going on is not begun: nothing is sent, the new handler is not kept and not called; all there is is a message of the level INFO, that is not shown where warnings are shown.
* `C125_loaded_violated`: C125. `handleTransfers` of a file that is loaded and not being uploaded says nothing.
* `C125_status_violated`: C125. The status with which a device refuses to tell the state of a file is told nowhere: with any two of them the messages and the exception of the constructor are the same.
* `C125_thrown_violated`: C125. Whenever a call throws, there is no error in the log and no call of a handler: the upload ends without either.
* `C126_closed_violated`: A connection that is told to be closed and stays open: the request to close it has thrown.
* `C126_levels_violated`: At the levels below, they do not hear of what is opened.
* `C126_opened_violated`: A connection that is told to be open although `forwardOpen` has thrown: there was no socket for it.
* `C126_serial_violated`: Two devices choose the same serial number; one of the connections times out. The message does not say which, though no call has thrown.
* `C126_timedOut_violated`: A connection that is told to have timed out and stays open: the listener for its closing has thrown.
* `C127_moved_violated`: C127 violated: moved data. When data are about to be sent, a thread ticks the connection and another one sets data of another size, then in some schedule the tick goes on with bytes that have moved.
* `C127_race_violated`: C127 violated: a thread that sets data while another ticks the connection. Whenever data are about to be sent there is a schedule with a data race.
* `C127_torn_violated`: C127 violated: torn data. When data are about to be sent, a thread ticks the connection and another one sets data, then each mixture of old and new bytes is what some schedule sends.
* `C128_bound_violated`: C128 violated: a UDP socket with bit 31 set in its number is taken for a failure, and stays open.
* `C128_handle_violated`: C128 violated: sockets with great numbers. One with bit 31 set is taken for a failure, and stays open.
* `C128_interval_violated`: C128 violated: a time to wait of 2^31 s up to 2^32 s is less than a second on Windows.
* `C128_long_violated`: C128 violated: one datagram that is too long ends discovery with an exception, and what has been found is lost, whatever comes after; on unix it is cut, and discovery goes on.
* `C128_many_violated`: C128 violated: the other sockets are never looked at, whatever has arrived; the connections that use them time out.
* `C128_stranger_violated`: C128 violated: anyone can end handling. A datagram of more than 8192 bytes, from whomever, makes the call throw; nothing has been sent, no connection has been told, and what else has arrived is not looked at. On unix the datagram is cut.
* `C128_timeout_violated`: C128 violated: the timeout of connecting. Unless Winsock reports that a blocking call is in progress, the constructor does the same whatever the timeout is; it calls `connect` on a blocking socket, and waits as long as Winsock does.
* `C129_abort_violated`: C129 violated: whenever two threads are going to close one connection, the assertion in `forwardClose` fails in some schedule.
* `C129_dangling_violated`: C129 violated: an iterator that leads nowhere. Whenever one thread has connections to handle, and another is going to close the first of them, some schedule has undefined behaviour, even if single accesses of the table were atomic.
* `C129_race_violated`: C129 violated: a data race. Whenever one thread has connections to handle, and another has one to open that the target grants, some schedule has a race on the table.
* `C129_wrong_violated`: C129 violated: the wrong connection is closed. If moreover one of them opens a connection then, and the target grants the same identifier, some schedule ends with that connection removed, although no call was told to close it; calls one after the other leave it open.
* `C130_killed_violated`: C130 violated: where neither is defined, one send to a peer that is gone kills the process, whatever is sent, after whatever history.
* `C130_leak_violated`: C130 violated: if the option cannot be set, the constructor throws and the descriptor stays open.
* `C130_unreported_violated`: C130 violated: the program does not learn that the peer is gone: the send returns as if all had been sent.
<!-- FINDINGS END -->

## Properties

<!-- PROPS BEGIN -->
### C01 Typed buffer round trip

*Plan.* Model Buffer as byte list + position with an explicit out-of-bounds outcome; one reader/writer per overload; induction over the list of values with a compositional 'reads exactly these bytes' relation.

*Status:* proved. *Theorems:* `Verif.Props.C01_typed_roundtrip`, `Verif.Props.C01_queue`.

### C02 Little-endian wire encoding

*Plan.* Independent spec `Spec.le n v` by repeated div/mod 256 over Nat; compare with the shifts and truncations of the code.

*Status:* proved. *Theorems:* `Verif.Props.C02_little_endian`, `Verif.Props.C02_injective`.

### C03 Reads are defined exactly when enough bytes remain

*Plan.* Case analysis on the remaining length for each reader, and an induction over read sequences for the isValid part.

*Status:* proved. *Theorems:* `Verif.Props.C03_read_defined_iff`, `Verif.Props.C03_isValid_never_false`.

### C04 CIP strings survive encoding exactly when their length fits

*Plan.* Model the truncating constructor and the stream operators, prove the iff.

*Status:* proved. *Theorems:* `Verif.Props.C04_short_string_roundtrip_iff`, `Verif.Props.C04_long_string_roundtrip_iff`, `Verif.Props.C04_written_bytes`.

### C05 Socket addresses travel in network byte order

*Plan.* Model htons and the in-memory representation on a little-endian host; spec is big-endian digits.

*Status:* proved. *Theorems:* `Verif.Props.C05_network_byte_order`, `Verif.Props.C05_roundtrip`. Host byte order is little-endian, as stated.

### C06 Encapsulation packets survive the wire

*Plan.* Model pack/expand/setData; layout spec with Spec.le; iff theorem including the overflowing side.

*Status:* proved. *Theorems:* `Verif.Props.C06_layout`, `Verif.Props.C06_roundtrip_iff`, `Verif.Props.C06_oversized_rejected`.

### C07 Encapsulation decoding is total and exact

*Plan.* Total classification theorem quantified over every out-of-bounds memory oracle; pack-after-expand identity.

*Status:* proved. *Theorems:* `Verif.Props.C07_total`.

### C08 Common packets survive the wire

*Plan.* Induction over the item list using the compositional reader relation; negative witnesses at 65536.

*Status:* proved. *Theorems:* `Verif.Props.C08_layout`, `Verif.Props.C08_roundtrip`, `Verif.Props.C08_item_view`, `Verif.Props.C08_truncated`, `Verif.Props.C08_oversized_item_loses_data`, `Verif.Props.C08_too_many_items_lost`.

### C09 Truncated common packets are never accepted as complete items

*Plan.* Memory oracle parameter for out-of-bounds reads; characterise success by a grammar on byte strings; prove strict = UB, lenient = throw.

*Status:* proved. *Theorems:* `Verif.Props.C09_classification`, `Verif.Props.C09_no_count`, `Verif.Props.C09_never_throws_strict`. Inputs of fewer than two bytes also read out of bounds, but if the stray reads return bytes the decoder returns an empty packet (C09_no_count).

### C10 Session commands have the standard layout

*Plan.* Exact byte-level equality with a spec-side layout.

*Status:* proved. *Theorems:* `Verif.Props.C10_registerSession`, `Verif.Props.C10_unRegisterSession`, `Verif.Props.C10_sendRRData`, `Verif.Props.C10_listIdentity`.

### C11 Padded EPATH layout and declared size

*Plan.* Layout theorem against a segment spec; negative witness for the default constructed path.

*Status:* proved. *Theorems:* `Verif.Props.C11_layout`, `Verif.Props.C11_size`, `Verif.Props.C11_default_path_violated`. The default constructed path, outside the claim, declares 0 words but packs 4 (or 2) bytes.

### C12 EPATH round trip

*Plan.* Iff theorem by computation of the decoder on the three layouts.

*Status:* proved. *Theorems:* `Verif.Props.C12_roundtrip_iff`, `Verif.Props.C12_class_level_lost`.

### C13 EPATH decoding accepts exactly sequences of known segments

*Plan.* Grammar of segments as an inductive spec; decoder correctness by induction on the remaining bytes.

*Status:* proved. *Theorems:* `Verif.Props.C13_classification`, `Verif.Props.C13_accepts`, `Verif.Props.C13_unknown`.

### C14 Message router requests decode uniquely

*Plan.* Spec-side decoder, round trip, injectivity corollary.

*Status:* proved. *Theorems:* `Verif.Props.C14_layout`, `Verif.Props.C14_decode`, `Verif.Props.C14_injective`, `Verif.Props.C14_wide_id_aliases`. Also proved for 8-bit mode when the identifiers fit 8 bits; C14_wide_id_aliases shows that restriction is needed.

### C15 Message router response decoding is total and exact

*Plan.* Total classification, plus inverse of a spec-side encoder; quantified over memory oracles.

*Status:* proved. *Theorems:* `Verif.Props.C15_total`, `Verif.Props.C15_accepts`.

### C16 Failed decoding is not all-or-nothing

*Plan.* State-carrying model of expand; frame theorem for what is kept and what is overwritten.

*Status:* proved. *Theorems:* `Verif.Props.C16_encaps_exception_state`, `Verif.Props.C16_all_or_nothing_violated`, `Verif.Props.C16_response_exception_state`, `Verif.Props.C16_response_all_or_nothing_violated`.

### C17 Connection parameter builder fields are independent

*Plan.* Bit-level model; theorem over permutations of a setter list.

*Status:* proved. *Theorems:* `Verif.Props.C17_independent`, `Verif.Props.C17_order_irrelevant`.

### C18 Connection parameter setters accumulate

*Plan.* Fold over setter lists equals OR of contributions; witness that last-write-wins fails.

*Status:* proved. *Theorems:* `Verif.Props.C18_accumulate`, `Verif.Props.C18_last_write_wins_violated`.

### C19 Forward open, large forward open and forward close layout

*Plan.* Equality with spec layouts; length theorems; spec-side decoding recovers every field.

*Status:* proved. *Theorems:* `Verif.Props.C19_forwardOpen`, `Verif.Props.C19_largeForwardOpen`, `Verif.Props.C19_forwardClose`.

### C20 Forward open replies are decoded exactly

*Plan.* Fixed-length reader composition; UB iff short.

*Status:* proved. *Theorems:* `Verif.Props.C20_accepts`, `Verif.Props.C20_classification`.

### C21 Receiving does not depend on TCP segmentation

*Plan.* Model recv as a script of kernel results; induction over the script.

*Status:* proved. *Theorems:* `Verif.Props.C21_receive`, `Verif.Props.C21_same_stream`.

### C22 Replies stay in step with requests

*Plan.* Induction over the list of calls with the stream-remainder invariant.

*Status:* proved. *Theorems:* `Verif.Props.C22_in_step`.

### C23 sendAndReceive returns only successful replies of this session

*Plan.* Decision logic over the whole receive path.

*Status:* proved. *Theorems:* `Verif.Props.C23_only_success`.

### C24 A reply cut short by the peer is not detected

*Plan.* Exact characterisation: result = stream prefix padded with zeros; witness of a truncated reply accepted.

*Status:* proved. *Theorems:* `Verif.Props.C24_receive_short`, `Verif.Props.C24_truncated_accepted`.

### C25 Registration stores the handle granted by the target

*Plan.* Constructor modelled over the socket script; witness that a peer closing at once yields a session with handle 0.

*Status:* proved. *Theorems:* `Verif.Props.C25_register`, `Verif.Props.C25_handle_enforced`, `Verif.Props.C25_registered_violated`. That requests carry the handle is part of C27_request, whose frame contains it.

### C26 Send failures are reported

*Plan.* Model the int/size_t comparison; iff theorem for throwing, witness for -1.

*Status:* proved. *Theorems:* `Verif.Props.C26_send`, `Verif.Props.C26_reports_failure_violated`, `Verif.Props.C26_udp_send`.

### C27 Explicit request end to end

*Plan.* Compose C06, C08, C15, C21 through the router model; spec-side adapter encoder.

*Status:* proved. *Theorems:* `Verif.Props.C27_request`, `Verif.Props.C27_history`.

### C28 Malformed router replies never look like success by themselves

*Plan.* Case analysis over the decoder results.

*Status:* proved. *Theorems:* `Verif.Props.C28_returns`, `Verif.Props.C28_malformed`.

### C29 Requested sizes on the wire

*Plan.* Arithmetic theorem on the parameter words; witness of the carry.

*Status:* proved. *Theorems:* `Verif.Props.C29_request`, `Verif.Props.C29_large_request`, `Verif.Props.C29_fits`, `Verif.Props.C29_carry_violated`.

### C30 Connection serial numbers do not repeat within 65536 opens

*Plan.* Counter model with truncation; arithmetic mod 2^16.

*Status:* proved. *Theorems:* `Verif.Props.C30_serial`, `Verif.Props.C30_distinct`, `Verif.Props.C30_overflow`.

### C31 Connection identifiers chosen by the scanner are distinct

*Plan.* Counter model; witness that the 16-bit counter drops the incarnation.

*Status:* proved. *Theorems:* `Verif.Props.C31_p2p`, `Verif.Props.C31_multicast`, `Verif.Props.C31_first`.

### C32 Open connections table

*Plan.* Transition system with environment inputs in the operations; invariant by induction.

*Status:* proved. *Theorems:* `Verif.Props.C32_table`, `Verif.Props.C32_hasOpen`.

### C33 A successful forward open yields a usable connection

*Plan.* Step theorem for forwardOpen; witness for the collision.

*Status:* proved. *Theorems:* `Verif.Props.C33_accepted`, `Verif.Props.C33_refused`, `Verif.Props.C33_destination`, `Verif.Props.C33_multiplier`, `Verif.Props.C33_collision_violated`.

### C34 Incoming data reaches the right connection

*Plan.* Routing theorem over the table invariant; witness of misdelivery.

*Status:* proved. *Theorems:* `Verif.Props.C34_routes`, `Verif.Props.C34_right_connection`, `Verif.Props.C34_misdelivered_violated`.

### C35 Fixed-size connections deliver only the agreed size

*Plan.* Step theorem and trace invariant over histories.

*Status:* proved. *Theorems:* `Verif.Props.C35_fixed_size`, `Verif.Props.C35_wrong_size_ignored`, `Verif.Props.C35_manager`.

### C36 Received payload decoding

*Plan.* Decode of spec encode for each flag combination; witness of the swap.

*Status:* proved. *Theorems:* `Verif.Props.C36_decode`, `Verif.Props.C36_own_layout`, `Verif.Props.C36_both_mixed`, `Verif.Props.C36_own_layout_violated`, `Verif.Props.C36_short`.

### C37 Transmitted sequence numbers

*Plan.* Induction over the connection history with a ghost period counter.

*Status:* proved. *Theorems:* `Verif.Props.C37_C50_transmission`, `Verif.Props.C37_C50_manager`, `Verif.Props.C37_sends`.

### C38 Transmissions are never faster than the negotiated interval

*Plan.* Invariant timer*1000 <= now - last production in nanoseconds, including 32-bit wrap of the timer.

*Status:* proved. *Theorems:* `Verif.Props.C38_never_faster`, `Verif.Props.C38_manager`.

### C39 Calls closer than a millisecond starve the connection

*Plan.* Induction over schedules; and the positive bound: lost time is below 1 ms per call.

*Status:* proved. *Theorems:* `Verif.Props.C39_starved`, `Verif.Props.C39_bounded_loss`, `Verif.Props.C39_manager`.

### C40 Connection timeout

*Plan.* Trace theorem relating the closing tick to the sum of counted milliseconds; witnesses for codes 6 and 7 and for product overflow.

*Status:* proved. *Theorems:* `Verif.Props.C40_timeout`, `Verif.Props.C40_timeout_codes`, `Verif.Props.C40_multiplier_zero`, `Verif.Props.C40_overflow_violated`, `Verif.Props.C40_gap_violated`, `Verif.Props.C40_manager`.

### C41 Close notification happens at most once and only on timeout

*Plan.* Trace invariant over the manager transition system.

*Status:* proved. *Theorems:* `Verif.Props.C41_only_handle`, `Verif.Props.C41_closed_iff_removed`, `Verif.Props.C41_silent_after_removal`, `Verif.Props.C41_at_most_once`, `Verif.Props.C41_closed_twice_violated`. At most once holds when every sendto transmits the whole datagram or fails with -1 and no send or close listener throws; C84_close_runs bounds the number of runs without these assumptions.

### C42 forwardClose closes this connection and only this one

*Plan.* Step theorem under the invariant that the pointer is still in the table; witnesses for the stale pointer.

*Status:* proved. *Theorems:* `Verif.Props.C42_close`, `Verif.Props.C42_close_throws`, `Verif.Props.C42_expired`, `Verif.Props.C42_expired_iff`, `Verif.Props.C42_stale`, `Verif.Props.C42_removes_other_violated`, `Verif.Props.C42_aborts_violated`.

### C43 One implicit socket per manager

*Plan.* Invariant |sockets| <= 1 from the comparison's behaviour on equal ports.

*Status:* proved. *Theorems:* `Verif.Props.C43_one_socket`.

### C44 EndPoint ordering

*Plan.* Order theorems over the model plus witnesses.

*Status:* proved. *Theorems:* `Verif.Props.C44_partial_order`, `Verif.Props.C44_equivalent_iff`, `Verif.Props.C44_not_weak_order_violated`, `Verif.Props.C44_inconsistent_with_eq_violated`.

### C45 handleConnections needs an implicit socket

*Plan.* Invariant over histories; witness of the empty manager.

*Status:* proved. *Theorems:* `Verif.Props.C45_needs_socket`.

### C46 Malformed implicit datagrams

*Plan.* Handler model including zero padding to 8192 bytes; state-preservation theorem; witnesses.

*Status:* proved. *Theorems:* `Verif.Props.C46_outcome`, `Verif.Props.C46_exception_state`, `Verif.Props.C46_ub`, `Verif.Props.C46_robust_violated`.

### C47 Truncated datagrams are padded

*Plan.* Exact padding theorem; witness of delivered zeros.

*Status:* proved. *Theorems:* `Verif.Props.C47_zeros`, `Verif.Props.C47_cut`, `Verif.Props.C47_invented`, `Verif.Props.C47_invented_violated`.

### C48 Waiting time conversion

*Plan.* Truncated integer division model; arithmetic.

*Status:* proved. *Theorems:* `Verif.Props.C48_interval`, `Verif.Props.C48_all_waits`.

### C49 handleConnections may not return while datagrams keep arriving

*Plan.* Round-based model: the number of rounds equals the number of ready results, independent of elapsed time.

*Status:* proved. *Theorems:* `Verif.Props.C49_waits`, `Verif.Props.C49_quiet`, `Verif.Props.C49_late_violated`.

### C50 Transmitted frame contents

*Plan.* Equality with a spec frame; decoding by the common packet decoder.

*Status:* proved. *Theorems:* `Verif.Props.C37_C50_transmission`, `Verif.Props.C37_C50_manager`.

### C51 Connections do not interfere

*Plan.* Frame theorem over the heap.

*Status:* proved. *Theorems:* `Verif.Props.C51_isolated`, `Verif.Props.C51_frame`.

### C52 Discovery reports every well-formed answer once, in order

*Plan.* Spec-side encoder of answers; induction over the list.

*Status:* proved. *Theorems:* `Verif.Props.C52_discovers`, `Verif.Props.C52_wellformed`.

### C53 Discovery failure semantics

*Plan.* Classification by induction over the receive script; witnesses.

*Status:* proved. *Theorems:* `Verif.Props.C53_only_would_block`, `Verif.Props.C53_error`, `Verif.Props.C53_rejected`, `Verif.Props.C53_short_violated`, `Verif.Props.C53_no_socket`, `Verif.Props.C53_short_send`. Read with C52_discovers, C53_only_would_block is an equivalence.  Without an out-of-bounds trap a short item is reported with whatever bytes lie behind it.

### C54 Identity object

*Plan.* Device-parametric model with request trace; decode of spec encode; witness for instance 2.

*Status:* proved. *Theorems:* `Verif.Props.C54_request`, `Verif.Props.C54_read`, `Verif.Props.C54_failed`, `Verif.Props.C54_short_violated`.

### C55 Parameter object decoding

*Plan.* Device-parametric model; compositional decoding.

*Status:* proved. *Theorems:* `Verif.Props.C55_requests`, `Verif.Props.C55_reads`, `Verif.Props.C55_sound`, `Verif.Props.C55_shifted_violated`.

### C56 Scaling conversions are inverse and monotone

*Plan.* Rational arithmetic with a rounding function parameter.

*Status:* proved. *Theorems:* `Verif.Props.C56_formula`, `Verif.Props.C56_inverse`, `Verif.Props.C56_inverse_back`, `Verif.Props.C56_monotone`, `Verif.Props.C56_monotone_back`. double is modelled by rationals with a rounding function; C105 has infinities and NaN.

### C57 Engineering to actual conversion can overflow

*Plan.* Int-range model of the product; iff theorem and witness.

*Status:* proved. *Theorems:* `Verif.Props.C57_overflow_violated`.

### C58 updateValue

*Plan.* Step theorem.

*Status:* proved. *Theorems:* `Verif.Props.C58_request`, `Verif.Props.C58_updates`, `Verif.Props.C58_refused`, `Verif.Props.C58_short_violated`, `Verif.Props.C58_no_router_violated`, `Verif.Props.C58_router`.

### C59 File upload completeness

*Plan.* Spec-side device as a state machine; induction over remaining content.

*Status:* proved. *Theorems:* `Verif.Props.C59_upload`, `Verif.Props.C59_chunks`.

### C60 File upload integrity against any device

*Plan.* Invariant over transfer histories with a ghost list of accepted packets.

*Status:* proved. *Theorems:* `Verif.Props.C60_content`, `Verif.Props.C60_two_last_violated`. For the first call of the handler exactly one of the packets is a last packet.

### C61 The upload handler is called once

*Plan.* Exact relation between return value and handler calls; witnesses.

*Status:* proved. *Theorems:* `Verif.Props.C61_one_call`, `Verif.Props.C61_count`, `Verif.Props.C61_error_violated`, `Verif.Props.C61_after_completion_violated`.

### C62 File object state follows the device

*Plan.* Decision logic.

*Status:* proved. *Theorems:* `Verif.Props.C62_create`, `Verif.Props.C62_begin`, `Verif.Props.C62_begin_other`, `Verif.Props.C62_transfer_other`, `Verif.Props.C62_empty_violated`.

### C63 PowerFlex fault listing

*Plan.* Device-parametric model with request trace; induction over the fault index.

*Status:* proved. *Theorems:* `Verif.Props.C63_listing`, `Verif.Props.C63_sound`, `Verif.Props.C63_throws`, `Verif.Props.C63_number`, `Verif.Props.C63_command`.

### C64 Unknown fault codes stop the listing

*Plan.* Exact characterisation and witness.

*Status:* proved. *Theorems:* `Verif.Props.C64_known`, `Verif.Props.C64_unknown`, `Verif.Props.C64_violated`.

### C65 DPI fault object decoding

*Plan.* Fixed-length decode theorem.

*Status:* proved. *Theorems:* `Verif.Props.C65_read`, `Verif.Props.C65_failed`, `Verif.Props.C65_short_violated`.

### C66 Yaskawa requests agree with 8-bit CIP requests

*Plan.* Two models, equality theorem.

*Status:* proved. *Theorems:* `Verif.Props.C66_layout`, `Verif.Props.C66_request`, `Verif.Props.C66_router`, `Verif.Props.C66_expand`, `Verif.Props.C66_roundtrip`, `Verif.Props.C66_eq`, `Verif.Props.C66_text`, `Verif.Props.C66_cut_violated`.

### C67 Log filtering

*Plan.* Decision logic and history theorem.

*Status:* proved. *Theorems:* `Verif.Props.C67_history`, `Verif.Props.C67_aborts`, `Verif.Props.C67_total`, `Verif.Props.C67_off`, `Verif.Props.C67_fatal_violated`. How values are formatted as text is not modelled.

### C68 TCP connect outcomes

*Plan.* Model as decision logic over system call results with an open-descriptor ghost.

*Status:* proved. *Theorems:* `Verif.Props.C68_outcome`, `Verif.Props.C68_connected`, `Verif.Props.C68_closes`, `Verif.Props.C68_destroy`, `Verif.Props.C68_calls`, `Verif.Props.C68_leak_violated`, `Verif.Props.C68_eintr_violated`, `Verif.Props.C68_fdset_violated`.

### C69 Settings chained after the redundant-owner setter are lost

*Plan.* Model the chain with its returned object; theorem over all chains and a witness that settings are lost.

*Status:* proved. *Theorems:* `Verif.Props.C69_chain`, `Verif.Props.C69_chained_settings_lost`.

### C70 Predefined connection parameter constants agree with the builder

*Plan.* Equalities over the bit-level model.

*Status:* proved. *Theorems:* `Verif.Props.C70_constants_agree`, `Verif.Props.C70_large_is_shifted`, `Verif.Props.C70_transport`.

### C71 Destroying a session

*Plan.* Destructor modelled with exceptions turned into termination; iff theorem and witness.

*Status:* proved. *Theorems:* `Verif.Props.C71_destructor`, `Verif.Props.C71_never_terminates_violated`.

### C72 Late replies are attributed to the next request

*Plan.* Theorem over all requests and replies: the first call throws, the second returns the first reply.

*Status:* proved. *Theorems:* `Verif.Props.C72_late_reply`.

### C73 Limits set in engineering units

*Plan.* Rational arithmetic with a rounding function parameter; encode after decode is the identity.

*Status:* proved. *Theorems:* `Verif.Props.C73_values`, `Verif.Props.C73_set_get`, `Verif.Props.C73_set`.

### C74 Typed access to stored values

*Plan.* Equality with a numeric specification; out-of-bounds theorem.

*Status:* proved. *Theorems:* `Verif.Props.C74_reads`, `Verif.Props.C74_short_violated`.

### C75 Malformed transfer packets

*Plan.* Step theorem for each kind of packet.

*Status:* proved. *Theorems:* `Verif.Props.C75_malformed`.

### C76 Listing faults again

*Plan.* Drive modelled as a state machine; composition of two calls.

*Status:* proved. *Theorems:* `Verif.Props.C76_drive`, `Verif.Props.C76_twice`.

### C77 Making and destroying a session

*Plan.* Constructor and destructor modelled over the open descriptors and the stream.

*Status:* proved. *Theorems:* `Verif.Props.C77_failed`, `Verif.Props.C77_made`, `Verif.Props.C77_life`.

### C78 Listeners that call back into the manager

*Plan.* Model of handleConnections split at every listener, calls in between; simulation by small steps of the model with atomic listeners, so the invariants carry over; conservativity for listeners without calls; concrete witnesses for what goes wrong.

*Status:* proved. *Theorems:* `Verif.Props.C78_isolated`, `Verif.Props.C78_table`, `Verif.Props.C78_ticked_once`, `Verif.Props.C78_all_ticked`, `Verif.Props.C78_removed`, `Verif.Props.C78_closed_removed`, `Verif.Props.C78_silent_after_removal`, `Verif.Props.C78_closed_once`, `Verif.Props.C78_transmission`, `Verif.Props.C78_never_faster`, `Verif.Props.C78_timeout`, `Verif.Props.C78_conservative`, `Verif.Props.C78_self_close`, `Verif.Props.C78_harmless`, `Verif.Props.C78_harmless_receiving`, `Verif.Props.C78_close_in_close_listener_violated`, `Verif.Props.C78_close_in_send_listener_violated`, `Verif.Props.C78_handle_in_close_listener_violated`, `Verif.Props.C78_reopen_in_close_listener_violated`, `Verif.Props.C78_new_connection_removed_violated`, `Verif.Props.C78_out_of_order_violated`. The listeners may throw after their calls. A send or close listener that closes its own connection is undefined whether or not it throws.

### C79 Objects over a TCP session, byte for byte

*Plan.* The session is an instance of the responder the object theorems quantify over; show that a stream of reply frames makes it grant the requests, then compose.

*Status:* proved. *Theorems:* `Verif.Props.C79_answer`, `Verif.Props.C79_grants`, `Verif.Props.C79_identity`, `Verif.Props.C79_parameter`, `Verif.Props.C79_update`, `Verif.Props.C79_faults`, `Verif.Props.C79_upload`.

### C80 Comparing and showing paths and end points

*Plan.* Case analysis; injectivity of the wire form.

*Status:* proved. *Theorems:* `Verif.Props.C80_path_eq`, `Verif.Props.C80_path_equivalence`, `Verif.Props.C80_path_text`, `Verif.Props.C80_endpoint_equivalence`, `Verif.Props.C80_endpoint_host`, `Verif.Props.C80_endpoint_address`, `Verif.Props.C80_endpoint_spelling_violated`, `Verif.Props.C80_endpoint_port_violated`.

### C81 A silent target is noticed and a live one is kept

*Plan.* Induction over the calls: every call ticks every open connection, so silence grows; invariant bounding the counter by the time since the last tick before a reception.

*Status:* proved. *Theorems:* `Verif.Props.C81_silent_closed`, `Verif.Props.C81_loop_ends`, `Verif.Props.C81_fed_open`, `Verif.Props.C81_all_kept`.

### C82 Scanner and target agree on the open connections

*Plan.* A target as a transition relation over its set of connections; joint invariant by induction over the history; invariance of the orphans; concrete witnesses.

*Status:* proved. *Theorems:* `Verif.Props.C82_open_at_target`, `Verif.Props.C82_agree`, `Verif.Props.C82_orphan_stays`, `Verif.Props.C82_failed_open`, `Verif.Props.C82_weak_pointers`, `Verif.Props.C82_orphan_violated`, `Verif.Props.C82_collision_violated`, `Verif.Props.C82_timeout_violated`. The target is a specification; requests or replies lost on the way are excluded.

### C83 The connection manager over a TCP session, byte for byte

*Plan.* The manager model composed with an arbitrary responder; refinement by induction over the history; the responder instantiated with the session model.

*Status:* proved. *Theorems:* `Verif.Props.C83_history`, `Verif.Props.C83_bytes`, `Verif.Props.C83_replies`, `Verif.Props.C83_readable`, `Verif.Props.C83_life`. The system accepts every send in full; requests fit a frame (connection paths of less than about 65000 bytes).

### C84 Listeners that throw

*Plan.* Listeners' exceptions as inputs of the model; case analysis of the calls that throw, induction over the loops and histories; concrete witnesses.

*Status:* proved. *Theorems:* `Verif.Props.C84_exception`, `Verif.Props.C84_listener_ends_call`, `Verif.Props.C84_receive`, `Verif.Props.C84_nothing_sent`, `Verif.Props.C84_close_runs`, `Verif.Props.C84_starves`, `Verif.Props.C84_dead_again`, `Verif.Props.C84_closed_twice_violated`, `Verif.Props.C84_removal_lost_violated`, `Verif.Props.C84_revived_violated`, `Verif.Props.C84_starved_violated`.

### C85 Sockets are closed exactly once, and none leaks

*Plan.* The manager with the descriptors of its sockets and a log of the system calls; invariant relating the open descriptors to owners, by induction over the history; refinement to the manager without descriptors.

*Status:* proved. *Theorems:* `Verif.Props.C85_descriptors`, `Verif.Props.C85_count`, `Verif.Props.C85_failed_open`, `Verif.Props.C85_nothing_left`, `Verif.Props.C85_destroyed`, `Verif.Props.C85_refines`, `Verif.Props.C85_sends`, `Verif.Props.C85_own`, `Verif.Props.C85_bind`. The system never returns a descriptor that is open; nothing else closes a descriptor of the library.

### C86 Descriptors that do not fit a set

*Plan.* Case analysis of the descriptors of the sockets along the history.

*Status:* proved. *Theorems:* `Verif.Props.C86_defined`, `Verif.Props.C86_other_operations`, `Verif.Props.C86_watched`, `Verif.Props.C86_posix`, `Verif.Props.C86_full_violated`.

### C87 Discovery's socket and time

*Plan.* Discovery with a descriptor and a log of system calls; recvfrom with a receive timeout as a function of the arrival times; induction over the arrivals.

*Status:* proved. *Theorems:* `Verif.Props.C87_refines`, `Verif.Props.C87_calls`, `Verif.Props.C87_descriptor`, `Verif.Props.C87_returns`, `Verif.Props.C87_when`, `Verif.Props.C87_bounded_violated`, `Verif.Props.C87_forever_violated`. SO_RCVTIMEO is modelled as the manual describes it.

### C88 How long a request takes

*Plan.* The session with arrival times as a refinement of the session without; a potential (bytes still wanted plus interruptions) bounds the number of waits.

*Status:* proved. *Theorems:* `Verif.Props.C88_refines`, `Verif.Props.C88_in_time`, `Verif.Props.C88_gives_up`, `Verif.Props.C88_bounded`, `Verif.Props.C88_within_timeout_violated`, `Verif.Props.C88_forever_violated`. SO_RCVTIMEO is modelled as the manual describes it; only waiting takes time. The user's expectation is refuted by the theorems named _violated.

### C89 A late reply

*Plan.* A client that makes requests at given times over the session with times; induction over the requests.

*Status:* proved. *Theorems:* `Verif.Props.C89_in_time`, `Verif.Props.C89_own_reply_violated`. The user's expectation is refuted by C89_own_reply_violated, for every history of that form.

### C90 How long the operations of objects take

*Plan.* A calculus that carries the number of requests, the time and the simulation by the session without times through the programs of the objects; the readers of replies have no undefined behaviour but stray reads.

*Status:* proved. *Theorems:* `Verif.Props.C90_request_same`, `Verif.Props.C90_identity`, `Verif.Props.C90_parameter`, `Verif.Props.C90_update`, `Verif.Props.C90_file`, `Verif.Props.C90_file_begin`, `Verif.Props.C90_file_step`, `Verif.Props.C90_fault`, `Verif.Props.C90_faults`, `Verif.Props.C90_fault_object`. Reads after the end of a vector return some byte (Mem.Lenient); otherwise they are undefined behaviour (C03).

### C91 Objects whose replies come late

*Plan.* The operations over the session with times, with the replies of C88 and C89.

*Status:* proved. *Theorems:* `Verif.Props.C91_identity_silent`, `Verif.Props.C91_parameter_silent`, `Verif.Props.C91_update_silent`, `Verif.Props.C91_upload_silent`, `Verif.Props.C91_faults_silent`, `Verif.Props.C91_own_value_violated`, `Verif.Props.C91_upload_goes_on_violated`. The user's expectation is refuted by the theorems named _violated.

### C92 Comparing packets, items and revisions

*Plan.* The context of every packet a user can have is 8 bytes long, by induction on how it was obtained; the encodings are injective.

*Status:* proved. *Theorems:* `Verif.Props.C92_packet`, `Verif.Props.C92_item`, `Verif.Props.C92_item_violated`, `Verif.Props.C92_revision`. The bound on items is needed: C92_item_violated.

### C93 Opening and closing connections over a slow session

*Plan.* Induction on histories over the session with times, from the cost and simulation of one request (C90) and of a step of the manager (C33, C83).

*Status:* proved. *Theorems:* `Verif.Props.C93_time`, `Verif.Props.C93_one_request`, `Verif.Props.C93_same`, `Verif.Props.C93_open_silent`, `Verif.Props.C93_close_silent`, `Verif.Props.C93_own_connection_violated`. The user's expectation is refuted by C93_own_connection_violated. Time spent in handleConnections is the subject of C48 and C49.

### C94 How promptly connections are handled

*Plan.* select and handleConnections over a queue of datagrams with arrival times, which refine the model without times; induction over the calls with a bound on the production timer.

*Status:* proved. *Theorems:* `Verif.Props.C94_receives`, `Verif.Props.C94_time`, `Verif.Props.C94_loop`, `Verif.Props.C94_sends`, `Verif.Props.C94_starved_violated`. The user's expectation for every timeout is refuted by C94_starved_violated. The system's select is taken to be exact.

### C95 Which calls of a connection manager are defined

*Plan.* The table and the settings of connections do not change while a wait receives, so the first arrival that does not let it go on decides; for histories, the first call without a defined outcome is one of the cases.

*Status:* proved. *Theorems:* `Verif.Props.C95_undefined_iff`, `Verif.Props.C95_asserts_iff`, `Verif.Props.C95_proper`. Stray reads of vectors count as undefined behaviour (Mem.strict). Listeners that call the manager are the subject of C78.

### C96 The example programs with explicit messages

*Plan.* The programs over the link model of the objects they use; induction over parameters and packets; soundness by inversion.

*Status:* proved. *Theorems:* `Verif.Props.C96_explicit`, `Verif.Props.C96_file`, `Verif.Props.C96_file_content`, `Verif.Props.C96_file_forever_violated`, `Verif.Props.C96_file_silent_violated`, `Verif.Props.C96_file_refused_violated`, `Verif.Props.C96_parameters_none`, `Verif.Props.C96_parameters`, `Verif.Props.C96_parameters_small_violated`, `Verif.Props.C96_parameters_class`, `Verif.Props.C96_parameters_sound`. Log output other than the lines about the answers, and the C++ runtime around main, are not modelled.

### C97 The example program with implicit messages

*Plan.* The program over the model of the manager; induction over the waits, from the theorems about histories of a manager (C37, C50, C51, C95).

*Status:* proved. *Theorems:* `Verif.Props.C97_program`, `Verif.Props.C97_uncaught_violated`, `Verif.Props.C97_defined`, `Verif.Props.C97_request`, `Verif.Props.C97_sends`. The expectation that the program always closes what it opened is refuted by C97_uncaught_violated.

### C98 Several managers in one process

*Plan.* A process is a list of managers and the shared counters; each manager's part of a history is a history of one manager by simulation, with the opens of others as steps of the counters; the counters are characterised by an invariant over the process.

*Status:* proved. *Theorems:* `Verif.Props.C98_refines`, `Verif.Props.C98_others`, `Verif.Props.C98_numbers`, `Verif.Props.C98_distinct`, `Verif.Props.C98_destroy`, `Verif.Props.C98_silent`, `Verif.Props.C98_own_close`, `Verif.Props.C98_foreign`, `Verif.Props.C98_incarnation_violated`, `Verif.Props.C98_foreign_close_violated`. The user's expectations are refuted by the theorems named _violated. All managers are used by one thread.

### C99 Objects made by hand

*Plan.* Setter calls are a type with an interpreter; by induction over the series each attribute is the last value picked out of it by a small separate function.

*Status:* proved. *Theorems:* `Verif.Props.C99_parameter`, `Verif.Props.C99_limit`, `Verif.Props.C99_limit_kept`, `Verif.Props.C99_fresh`, `Verif.Props.C99_number_violated`, `Verif.Props.C99_identity`. The user's expectation about getParameter() is refuted by C99_number_violated. Limits of type float and double are in C105.

### C100 Threads that share a session

*Plan.* Small steps: every send and recv of a thread is one step of a transition system with the bytes in flight; invariants over all schedules: the part of a reply held by the one receiving thread and the bytes in flight are together the packed replies still to be handed out.

*Status:* proved. *Theorems:* `Verif.Props.C100_locked`, `Verif.Props.C100_order`, `Verif.Props.C100_requests`, `Verif.Props.C100_gives`, `Verif.Props.C100_handle`, `Verif.Props.C100_late`, `Verif.Props.C100_swapped_violated`, `Verif.Props.C100_torn_violated`, `Verif.Props.C100_late_violated`, `Verif.Props.C100_half_violated`. The expectation without a lock, or with timeouts, is refuted by the theorems named _violated. C100_locked is for schedules without timeouts, C100_late for those with timeouts between replies; each system call is atomic and send takes the whole packet.

### C101 The order of calls of different managers

*Plan.* A call that is not an open does the same for all values of the shared counters, so two calls of different managers, not both opens, can be exchanged; by induction the first call of one order is moved to the front of the other.

*Status:* proved. *Theorems:* `Verif.Props.C101_order`, `Verif.Props.C101_one_opener`, `Verif.Props.C101_opens_violated`. That the order of opens does not matter is refuted by C101_opens_violated. Calls are atomic: calls that run at the same time are not covered. The replies and datagrams each call gets are part of the call.

### C102 The state of a file object, and several uploads with one object

*Plan.* SyncState as an operation of the object model; C60 is proved for histories with it; the list of uploads by induction from the theorem for one upload.

*Status:* proved. *Theorems:* `Verif.Props.C102_code`, `Verif.Props.C102_stays`, `Verif.Props.C102_sync`, `Verif.Props.C102_uploads`, `Verif.Props.C102_again_violated`. The expectation about a second beginUpload is refuted by C102_again_violated. Handlers return and do not use the object; C106 has handlers that do.

### C103 What the Yaskawa, identity and discovery examples do

*Plan.* Each main as a program over a responder; the loops by induction; the identity and discovery examples from C54 and C52.

*Status:* proved. *Theorems:* `Verif.Props.C103_fill`, `Verif.Props.C103_read`, `Verif.Props.C103_write`, `Verif.Props.C103_yaskawa`, `Verif.Props.C103_yaskawa_throws`, `Verif.Props.C103_short_violated`, `Verif.Props.C103_whole`, `Verif.Props.C103_identity`, `Verif.Props.C103_discovery`, `Verif.Props.C103_discovery_ends`. The expectation about short replies is refuted by C103_short_violated. Log lines are the values streamed, not their text. The main under #if 0 is not modelled.

### C104 Engineering values in the arithmetic of double

*Plan.* The rounding of binary64 as a computable function on rationals, proved to give the nearest number of 53 bits, ties to even, and to be monotone; relative error of each operation at most 2^-53, multiplied out over the seven operations of a round trip; magnitudes of all intermediate results bounded.

*Status:* proved. *Theorems:* `Verif.Props.C104_nearest`, `Verif.Props.C104_tie`, `Verif.Props.C104_rounding`, `Verif.Props.C104_error`, `Verif.Props.C104_accuracy`, `Verif.Props.C104_limit`, `Verif.Props.C104_exact`, `Verif.Props.C104_range`, `Verif.Props.C104_off_by_one_violated`, `Verif.Props.C104_wide_violated`. The expectation about limits is refuted by C104_off_by_one_violated and C104_wide_violated. Exponents of the model are unbounded, which C104_range shows to make no difference. No contraction of operations and no extended precision (x87) is assumed.

### C105 float, double, infinities and NaN in engineering values

*Plan.* Rounding with an exponent range as a computable function, proved to give the nearest number of the format, ties to even, infinite exactly from half a unit beyond the largest number; bit patterns decoded and encoded by fields; magnitudes of intermediate results bounded to show that neither overflow nor underflow occurs, or that it does not change the converted integer.

*Status:* proved. *Theorems:* `Verif.Props.C105_double`, `Verif.Props.C105_float`, `Verif.Props.C105_get`, `Verif.Props.C105_set`, `Verif.Props.C105_real_bits`, `Verif.Props.C105_lreal_bits`, `Verif.Props.C105_real_same`, `Verif.Props.C105_lreal_same`, `Verif.Props.C105_real`, `Verif.Props.C105_lreal`, `Verif.Props.C105_special`, `Verif.Props.C105_set_lreal`, `Verif.Props.C105_set_real`, `Verif.Props.C105_monotone`, `Verif.Props.C105_sane`, `Verif.Props.C105_drive`, `Verif.Props.C105_divisor_zero_violated`, `Verif.Props.C105_multiplier_zero_violated`, `Verif.Props.C105_set_infinite_violated`, `Verif.Props.C105_lreal_overflow_violated`. The expectation is refuted by C105_divisor_zero_violated, C105_multiplier_zero_violated and C105_set_infinite_violated. The sign of zero and the payload of NaN are not kept; a double too large for float becomes infinite (IEEE 754; the C++ standard leaves it open).

### C106 Upload handlers that use the file object, or throw

*Plan.* Handlers as trees of actions, interpreted by recursion; each state object has a number, and a handler that uses what is stored in a state object with another number, or in a destroyed object, is undefined. Each operation is proved to be the operation of C59 to C62 followed by the handler; absence of undefined behaviour by induction on the tree.

*Status:* proved. *Theorems:* `Verif.Props.C106_transfer`, `Verif.Props.C106_begin`, `Verif.Props.C106_transfer_done`, `Verif.Props.C106_look`, `Verif.Props.C106_careful`, `Verif.Props.C106_careful_calls`, `Verif.Props.C106_restart`, `Verif.Props.C106_raise`, `Verif.Props.C106_begin_raise`, `Verif.Props.C106_drop`, `Verif.Props.C106_gone_violated`, `Verif.Props.C106_after_sync_violated`, `Verif.Props.C106_begin_again_violated`, `Verif.Props.C106_nested_violated`. The expectations are refuted by C106_after_sync_violated, C106_nested_violated, C106_begin_again_violated and C106_drop. Handlers do not catch exceptions of the calls they make. Destroying a std::function while it runs is taken as defined as long as nothing of it is used afterwards.

### C107 Threads that open connections

*Plan.* Threads as machines whose steps are the reads and writes of the counters; invariant by induction over the schedule that relates the counters in the middle of a call to those before it; the expectation is refuted by schedules given for all initial counters.

*Status:* proved. *Theorems:* `Verif.Props.C107_locked`, `Verif.Props.C107_distinct`, `Verif.Props.C107_one_thread`, `Verif.Props.C107_race_violated`, `Verif.Props.C107_same_numbers_violated`, `Verif.Props.C107_repeated_violated`. The expectation is refuted by the theorems named _violated. After a request the rest of a call uses no shared state. The initialisation of a static counter is atomic (C++11).

### C108 Datagrams from anywhere, and managers that share the port

*Plan.* A queue per bound socket around the model of the process; invariants by induction over histories; the independence from senders as a simulation; the expectations are refuted by concrete histories.

*Status:* proved. *Theorems:* `Verif.Props.C108_reads`, `Verif.Props.C108_none_lost`, `Verif.Props.C108_sender`, `Verif.Props.C108_stranger_violated`, `Verif.Props.C108_shared_port_violated`. The expectations are refuted by the theorems named _violated. To which socket of a port the system gives a datagram is arbitrary in the model. Errors of recvfrom are in C34, not here.

### C109 What can be read from the log

*Plan.* The insertions into the stream with the flag std::hex as a fold over what is inserted; a separate reader that looks for a label and reads digits; reading back by induction on the number of digits. Which messages are written is a function beside each modelled operation, related to its result.

*Status:* proved. *Theorems:* `Verif.Props.C109_ids`, `Verif.Props.C109_request`, `Verif.Props.C109_additional`, `Verif.Props.C109_status_character`, `Verif.Props.C109_status_violated`, `Verif.Props.C109_close_violated`, `Verif.Props.C109_file`, `Verif.Props.C109_file_violated`, `Verif.Props.C109_refused`, `Verif.Props.C109_opened`, `Verif.Props.C109_opened_violated`, `Verif.Props.C109_closed`, `Verif.Props.C109_tick`, `Verif.Props.C109_recv`, `Verif.Props.C109_drop`, `Verif.Props.C109_console`, `Verif.Props.C109_sockets`. The expectations are refuted by the theorems named _violated. That a value of an enumeration over an 8-bit type is streamed as a character is the behaviour of the C++ library. The messages of file objects in their histories are C125.

### C110 Hosts as texts

*Plan.* inet_aton as a function on lists of characters, proved to agree with a grammar of numbers and dots (soundness by induction on the places left, completeness by induction on the derivation); the rest from the grammar.

*Status:* proved. *Theorems:* `Verif.Props.C110_hosts`, `Verif.Props.C110_dotted`, `Verif.Props.C110_round`, `Verif.Props.C110_name_violated`, `Verif.Props.C110_padded_violated`. The expectations are refuted by the theorems named _violated. inet_aton is not in the repository: the model follows the documented behaviour of the GNU C library and is part of the trusted base of this property alone. The Windows branch (inet_pton) is not modelled.

### C111 Threads that log

*Plan.* Threads as machines whose steps are accesses to the static members, the virtual call, and single characters on the console; invariants by induction over the schedule; the expectations are refuted by schedules given for all messages.

*Status:* proved. *Theorems:* `Verif.Props.C111_defined`, `Verif.Props.C111_kept`, `Verif.Props.C111_locked`, `Verif.Props.C111_in_turn`, `Verif.Props.C111_mixed_violated`, `Verif.Props.C111_race_violated`, `Verif.Props.C111_destroyed_violated`. The expectations are refuted by the theorems named _violated. That concurrent use of std::cout is no data race but may interleave characters is what the C++ standard says. An appender of the user is taken to be safe for concurrent calls.

### C112 UDP sockets used directly

*Plan.* A queue of arrivals and a variable for the end point; induction over the program; the reply by host and port from C110.

*Status:* proved. *Theorems:* `Verif.Props.C112_order`, `Verif.Props.C112_reply`, `Verif.Props.C112_length_violated`. The expectation is refuted by the theorem named _violated. A call on an empty queue waits and the program goes no further. Failures of sendto are in C26; the reply by host and port uses the model of inet_aton of C110.

### C113 Listeners that are set and replaced

*Plan.* The connection with its three listeners and a count of replacements, by which a destroyed function is told from a live one; induction over functions and histories; a refinement to the model with fixed listeners.

*Status:* proved. *Theorems:* `Verif.Props.C113_defined`, `Verif.Props.C113_self_violated`, `Verif.Props.C113_refines`, `Verif.Props.C113_latest`, `Verif.Props.C113_data`, `Verif.Props.C113_empty_violated`. The expectations are refuted by the theorems named _violated. Functions of the user that call the manager are in C78; moved or shared captures that survive the function are not in the model, which takes everything captured as destroyed with it.

### C114 Copies of a connection manager

*Plan.* A process with a list of managers that share connection objects and, by the manager whose this was captured, the handler of the socket; invariants by induction over histories: who made each socket, and which connections no handler can find.

*Status:* proved. *Theorems:* `Verif.Props.C114_objects`, `Verif.Props.C114_own`, `Verif.Props.C114_pointers`, `Verif.Props.C114_handler`, `Verif.Props.C114_destroy`, `Verif.Props.C114_destroyed_violated`, `Verif.Props.C114_deaf_violated`, `Verif.Props.C114_close_violated`, `Verif.Props.C114_twice_violated`, `Verif.Props.C114_assign`, `Verif.Props.C114_swap_violated`. The expectations are refuted by the theorems named _violated.

### C115 Copies of a session

*Plan.* A process with a table of descriptors, given out lowest first, the connections ever made and the session objects, each with a descriptor number and a handle; invariants by induction over histories: which connection each descriptor stands for, and what was sent on each.

*Status:* proved. *Theorems:* `Verif.Props.C115_own`, `Verif.Props.C115_wire`, `Verif.Props.C115_destroy`, `Verif.Props.C115_stale_violated`, `Verif.Props.C115_vector_violated`, `Verif.Props.C115_next_violated`, `Verif.Props.C115_file_violated`. The expectations are refuted by the theorems named _violated. Assignment of sessions is C118.

### C116 Data that are lost, repeated or out of order

*Plan.* A target numbers its datagrams; induction over the calls with the routing rule of C34 and the decoding of C36; the filter by arithmetic of 16-bit differences; replays by induction over the number of calls.

*Status:* proved. *Theorems:* `Verif.Props.C116_as_arrived`, `Verif.Props.C116_number_ignored`, `Verif.Props.C116_filter`, `Verif.Props.C116_order_violated`, `Verif.Props.C116_filter_violated`, `Verif.Props.C116_replay_violated`. The expectations are refuted by the theorems named _violated. Datagrams of a target are in the layout that the scanner reads (C36); calls of handleConnections return normally and the connection stays open (C46 and C81 say when).

### C117 Byte order of the host

*Plan.* The end points with the byte order and the layout of addresses as parameters; memory images of integers as lists of bytes; arithmetic of bytes. The rest of the model is the instance of Linux on a little-endian host.

*Status:* proved. *Theorems:* `Verif.Props.C117_little`, `Verif.Props.C117_system`, `Verif.Props.C117_roundtrip`, `Verif.Props.C117_written`, `Verif.Props.C117_read`, `Verif.Props.C117_big_violated`, `Verif.Props.C117_bsd_violated`, `Verif.Props.C117_bsd_any_violated`. The expectations are refuted by the theorems named _violated. All other numbers are put in buffers by shifts of their values, which do not depend on the host; that is read off the code and not proved.

### C118 Assignment of sessions

*Plan.* The process of C115 with assignment; a connection that no object and no open file has the descriptor of stays so under every operation, by induction over what is done afterwards.

*Status:* proved. *Theorems:* `Verif.Props.C118_follows`, `Verif.Props.C118_same`, `Verif.Props.C118_leak_violated`, `Verif.Props.C118_reconnect_violated`. The expectations are refuted by the theorems named _violated. That the old connection leaks when one connects again is C118_leak_violated for the history that ends with the new session.

### C119 How much a peer can make the library hold

*Plan.* Each reader is shown to move on by a fixed number of bytes; sizes by arithmetic along the parsers and by induction over items, histories and answers; the unbounded cases by induction over the number of calls against one explicit device.

*Status:* proved. *Theorems:* `Verif.Props.C119_packet`, `Verif.Props.C119_reply`, `Verif.Props.C119_taken`, `Verif.Props.C119_io`, `Verif.Props.C119_transfer`, `Verif.Props.C119_discovery`, `Verif.Props.C119_upload_violated`, `Verif.Props.C119_discovery_violated`. The expectations are refuted by the theorems named _violated. Sizes are those of the data that the objects hold and hand over; what the allocator adds is not modelled.

### C120 When memory runs out: sessions and file objects

*Plan.* The functions again, with an explicit list that tells which allocations fail; simulation by the functions without allocations when none fails; the state at each place where one fails; the upload by an invariant on the packets taken and sent, by induction over the number of calls.

*Status:* proved. *Theorems:* `Verif.Props.C120_plenty`, `Verif.Props.C120_request`, `Verif.Props.C120_in_step`, `Verif.Props.C120_router`, `Verif.Props.C120_begin`, `Verif.Props.C120_file`, `Verif.Props.C120_sync`, `Verif.Props.C120_create_plenty`, `Verif.Props.C120_file_plenty`, `Verif.Props.C120_retry`, `Verif.Props.C120_step_violated`, `Verif.Props.C120_header_violated`, `Verif.Props.C120_destroy_violated`, `Verif.Props.C120_destroy_file_violated`, `Verif.Props.C120_file_violated`. The expectations are refuted by the theorems named _violated. The log is taken to be off. Allocations with nothing but local effects between them are one place.

### C121 When memory runs out: connections

*Plan.* The operations again with the place of the failing allocation; each is the operation with enough memory or ends with the exception, by cases; the effect on connection objects is the replay of the events, by induction over histories; the numbers by bounds on how far each step advances them; concrete histories for what fails.

*Status:* proved. *Theorems:* `Verif.Props.C121_or_same`, `Verif.Props.C121_keeps`, `Verif.Props.C121_table`, `Verif.Props.C121_open`, `Verif.Props.C121_nothing`, `Verif.Props.C121_lost`, `Verif.Props.C121_unsent`, `Verif.Props.C121_isolated`, `Verif.Props.C121_numbers`, `Verif.Props.C121_forward`, `Verif.Props.C121_apart_violated`, `Verif.Props.C121_closed_twice_violated`, `Verif.Props.C121_orphan_violated`. The expectations are refuted by the theorems named _violated. The log is taken to be off; listeners do not call the manager. A failure inside of the message router or of a listener is an exception of it, as in C84 and C120.

### C122 When memory runs out: discovery and objects

*Plan.* The functions again, with an explicit list that tells which allocations fail; a relation between programs with and without allocations that is kept by sequencing, branching and requests, so that each function is related by its structure; the faults by induction over the queue of the drive and the number of calls; concrete runs for what fails.

*Status:* proved. *Theorems:* `Verif.Props.C122_devices`, `Verif.Props.C122_objects`, `Verif.Props.C122_update`, `Verif.Props.C122_faults`, `Verif.Props.C122_kept`, `Verif.Props.C122_retry`, `Verif.Props.C122_discover`, `Verif.Props.C122_yaskawa`, `Verif.Props.C122_once_violated`, `Verif.Props.C122_found_violated`. The expectations are refuted by the theorems named _violated. The log is taken to be off. Allocations with nothing but local effects between them are one place.

### C123 When memory runs out: the log

*Plan.* The stream with its bad bit and the place at which each insertion finds no memory; a bad stream keeps its text, and the text is a prefix, by induction over the insertions; the copy of the text and the table of names in the destructor, which is noexcept; that each message is longer than the room of a short string, by cases over the messages.

*Status:* proved. *Theorems:* `Verif.Props.C123_messages`, `Verif.Props.C123_plenty`, `Verif.Props.C123_hidden`, `Verif.Props.C123_prefix`, `Verif.Props.C123_survives`, `Verif.Props.C123_request`, `Verif.Props.C123_end_violated`, `Verif.Props.C123_first_violated`, `Verif.Props.C123_number_violated`, `Verif.Props.C123_request_violated`. The expectations are refuted by the theorems named _violated. That a stream which finds no memory sets its bad bit and does not throw, and that a string of up to 15 characters needs no memory, are the behaviour of the GNU C++ library.

### C124 The log and the errors of sockets

*Plan.* The calls again with the state of the log and errno, and the appender as a function on errno; the discovery with the log is the one without it on mapped errors, by induction over the receive results; TCP by induction over the events of the network.

*Status:* proved. *Theorems:* `Verif.Props.C124_levels`, `Verif.Props.C124_receive`, `Verif.Props.C124_discover`, `Verif.Props.C124_transparent`, `Verif.Props.C124_short_send`, `Verif.Props.C124_notes`, `Verif.Props.C124_tcp`, `Verif.Props.C124_lost_violated`, `Verif.Props.C124_hidden_violated`. The expectations are refuted by the theorems named _violated. Appenders do not throw here (C67 has those that do) and do not call the library.

### C125 The log of file objects

*Plan.* The functions of the file object again, with the messages they write; each is the one without messages when the messages are erased; an invariant that relates the messages to the state, the requests and the calls of handlers, by induction over the histories.

*Status:* proved. *Theorems:* `Verif.Props.C125_same`, `Verif.Props.C125_states`, `Verif.Props.C125_balanced`, `Verif.Props.C125_failed`, `Verif.Props.C125_requests`, `Verif.Props.C125_failures`, `Verif.Props.C125_ignored`, `Verif.Props.C125_resync`, `Verif.Props.C125_packets`, `Verif.Props.C125_again_violated`, `Verif.Props.C125_loaded_violated`, `Verif.Props.C125_thrown_violated`, `Verif.Props.C125_status_violated`. The expectations are refuted by the theorems named _violated. The number of the file that the text of one exception has is not modelled.

### C126 Reading the open connections off the log

*Plan.* `Model/ManagerLog` gives the messages of each call of a history, `Spec/ManagerLog` what a reader makes of them. An invariant says that the reader's list is the table of the manager, and that serial numbers in it differ; by induction over histories, with lemmas about the walk over sockets and ticks.

*Status:* proved. *Theorems:* `Verif.Props.C126_open`, `Verif.Props.C126_has`, `Verif.Props.C126_levels`, `Verif.Props.C126_levels_violated`, `Verif.Props.C126_opened_violated`, `Verif.Props.C126_closed_violated`, `Verif.Props.C126_timedOut_violated`, `Verif.Props.C126_serial_violated`. Holds for histories without repeated serial numbers in which no call throws after such a message; the `_violated` theorems show that each of these conditions is needed, with the manager's actual state beside what the reader takes it to be.

### C127 Threads that use one connection

*Plan.* `Model/DataThreads` splits the assignment and the copy of the data into steps of one byte. With a lock: an invariant that relates the state to a one-thread run of the ended calls. Without: an invariant over each byte; for each mask a schedule is built by induction over the places.

*Status:* proved. *Theorems:* `Verif.Props.C127_locked`, `Verif.Props.C127_whole`, `Verif.Props.C127_norace`, `Verif.Props.C127_bytes`, `Verif.Props.C127_race_violated`, `Verif.Props.C127_torn_violated`, `Verif.Props.C127_moved_violated`. Holds under a lock of the program; the `_violated` theorems show what happens without. Any change of the size counts as a move of the bytes. C127_bytes takes reads and writes of bytes to be atomic, which C++ does not promise in a race.

### C128 The Windows build

*Plan.* `Model/Windows` gives the functions without their unix parts, over results of Winsock. Sockets by running the constructor in all cases; discovery and connections by showing that they are those of the unix model on what Winsock makes of the arrivals, with the code of the end of waiting exchanged.

*Status:* proved. *Theorems:* `Verif.Props.C128_handle`, `Verif.Props.C128_connect`, `Verif.Props.C128_destroy`, `Verif.Props.C128_no_socket`, `Verif.Props.C128_bound`, `Verif.Props.C128_interval`, `Verif.Props.C128_limit`, `Verif.Props.C128_limit_same`, `Verif.Props.C128_discover`, `Verif.Props.C128_discover_same`, `Verif.Props.C128_handle_same`, `Verif.Props.C128_served`, `Verif.Props.C128_message`, `Verif.Props.C128_no_message`, `Verif.Props.C128_timeout_violated`, `Verif.Props.C128_handle_violated`, `Verif.Props.C128_bound_violated`, `Verif.Props.C128_interval_violated`, `Verif.Props.C128_long_violated`, `Verif.Props.C128_stranger_violated`, `Verif.Props.C128_many_violated`. Holds under the conditions in the statement; the `_violated` theorems show what happens without them. What Winsock does is taken from its documentation and is part of the trusted base. inet_pton is not modelled.

### C129 Threads that share a connection manager

*Plan.* `Model/ManagerThreads` splits the calls at the accesses of the map. With a lock: an invariant that relates the middle of a call to the run of the ended calls by one thread. Without: a schedule is given for every table.

*Status:* proved. *Theorems:* `Verif.Props.C129_locked`, `Verif.Props.C129_norace`, `Verif.Props.C129_race_violated`, `Verif.Props.C129_dangling_violated`, `Verif.Props.C129_abort_violated`, `Verif.Props.C129_wrong_violated`. Holds under a lock of the program; the `_violated` theorems show what happens without. The accesses of the table are single steps; sockets, received data and the contents of a connection are left out.

### C130 Peers that are gone do not kill the program

*Plan.* `Model/BrokenPipe`: a process with sockets, over what the documentation says of the signal; an invariant that every object has an open socket with the option if the build has it, and a count of descriptors, by induction over the history.

*Status:* proved. *Theorems:* `Verif.Props.C130_alive`, `Verif.Props.C130_exact`, `Verif.Props.C130_descriptors`, `Verif.Props.C130_same`, `Verif.Props.C130_killed_violated`, `Verif.Props.C130_unreported_violated`, `Verif.Props.C130_leak_violated`. Holds where the system defines one of the macros; the `_violated` theorems show what happens otherwise. What the system does on a broken pipe is taken from its documentation. Failures of fcntl are in C68.
<!-- PROPS END -->
