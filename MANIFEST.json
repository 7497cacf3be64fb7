{
 "claims": [
  {
   "property": "C01",
   "status": "proved",
   "theorems": [
    "Claw.C01_header_roundtrip",
    "Claw.C01_header_refuses",
    "Claw.C01_header_bijective",
    "Claw.C01_header_update"
   ],
   "note": "All headers, both directions."
  },
  {
   "property": "C02",
   "status": "proved",
   "theorems": [
    "Claw.C02_map_header_roundtrip",
    "Claw.C02_map_header_refuses",
    "Claw.C02_any_header_roundtrip"
   ],
   "note": "All map and Any headers."
  },
  {
   "property": "C03",
   "status": "partial",
   "theorems": [
    "Claw.C03_four_gib_field_is_lost",
    "Claw.C03_struct_is_record_partial",
    "Claw.C03_get_returns_last_set_partial",
    "Claw.C03_zero_is_zero",
    "Claw.C03_minus_zero_is_lost",
    "Claw.C03_out_of_schema_panics"
   ],
   "note": "Every program of sets (scalar, string, bytes, list, Any, []Any, map, nested struct, struct list) and clears, any depth, below 4 GiB and at most 65536 fields, whose final values are clean. Minus zero reads back as plus zero, and a bytes field whose encoding is a multiple of 4 GiB is lost (both proved)."
  },
  {
   "property": "C04",
   "status": "partial",
   "theorems": [
    "Claw.C04_four_gib_field_is_lost",
    "Claw.C04_marshal_unmarshal_partial"
   ],
   "note": "All field types, any depth, below 4 GiB; final string and bytes lists only when clean (C11), maps only when clean (C14). A bytes field whose encoding is a multiple of 4 GiB is lost (proved), though 1 TiB is the documented limit."
  },
  {
   "property": "C05",
   "status": "partial",
   "theorems": [
    "Claw.C05_four_gib_not_canonical",
    "Claw.C05_canonical_partial",
    "Claw.C05_sparse_sorted_partial"
   ],
   "note": "Every program below 4 GiB, clean or not; 'at zero' includes an empty nested struct. From 4 GiB on it is false: a struct given a bytes value whose encoding is a multiple of 4 GiB looks like a new struct and has another message (C05_four_gib_not_canonical)."
  },
  {
   "property": "C06",
   "status": "partial",
   "theorems": [
    "Claw.C06_size",
    "Claw.C06_number_list_unaligned",
    "Claw.C06_alignment_partial"
   ],
   "note": "Header size holds. Alignment is false for number lists (witness); proved when the items of all number lists, Any and []Any fill whole words."
  },
  {
   "property": "C07",
   "status": "partial",
   "theorems": [
    "Claw.C07_schema_evolution_partial",
    "Claw.C07_forwarding_keeps_unknown_fields_partial"
   ],
   "note": "Any reader schema length, plus forwarding by a reader that does not know all fields; below 4 GiB, final values clean."
  },
  {
   "property": "C08",
   "status": "partial",
   "theorems": [
    "Claw.C08_hangs",
    "Claw.C08_panics",
    "Claw.C08_reads_beyond_message",
    "Claw.C08_unmarshal_accepts",
    "Claw.C08_hangs_exactly",
    "Claw.C08_sane_bytes_decode_partial",
    "Claw.C08_narrow_getters_return_partial"
   ],
   "note": "False as stated: hang, panic and over-read witnesses. Exact hang condition and a sufficient condition for all getters proved."
  },
  {
   "property": "C09",
   "status": "partial",
   "theorems": [
    "Claw.C09_four_gib_list_is_lost",
    "Claw.C09_bool_list_round_trip_partial",
    "Claw.C09_layout"
   ],
   "note": "All bool lists after any program below the 4 GiB message limit, plus the bit layout. From 4 GiB on the property fails: a list whose encoding is a multiple of 4 GiB is stored without an error and is absent for sender and receiver."
  },
  {
   "property": "C10",
   "status": "partial",
   "theorems": [
    "Claw.C10_four_gib_list_is_lost",
    "Claw.C10_number_list_round_trip_partial",
    "Claw.C10_list_is_slice",
    "Claw.C10_decoded_list"
   ],
   "note": "All item types and lists after any program below the 4 GiB message limit; Append/Set/SetAll refine a slice. From 4 GiB on the round trip fails: a list whose encoding is a multiple of 4 GiB is stored without an error and is unset for sender and receiver."
  },
  {
   "property": "C11",
   "status": "partial",
   "theorems": [
    "Claw.C11_padding_becomes_an_item",
    "Claw.C11_exact",
    "Claw.C11_round_trip_partial"
   ],
   "note": "False as stated: padding of 4 bytes or more is read back as an extra empty item (witness). Exact result of decoding proved for every list; round trip for the others."
  },
  {
   "property": "C12",
   "status": "partial",
   "theorems": [
    "Claw.C12_struct_list_round_trip_partial"
   ],
   "note": "All lists of structs built by programs as in C03, any depth, below 4 GiB; other fields arbitrary."
  },
  {
   "property": "C13",
   "status": "proved",
   "theorems": [
    "Claw.C13_map_refines",
    "Claw.C13_get_after_set"
   ],
   "note": "All key types (floats by their IEEE value), all sequences of Set/Delete/Clear."
  },
  {
   "property": "C14",
   "status": "partial",
   "theorems": [
    "Claw.C14_exact",
    "Claw.C14_padding_becomes_entries",
    "Claw.C14_round_trip_partial",
    "Claw.C14_wide_maps",
    "Claw.C14_too_large_panics"
   ],
   "note": "False as stated: the padding is decoded as entries (witness). Exact result of decoding proved for every map below 16 MiB; round trip when the padding is shorter than an entry, always for wide key/value types; panic from 16 MiB on."
  },
  {
   "property": "C15",
   "status": "partial",
   "theorems": [
    "Claw.C15_any_round_trip_partial",
    "Claw.C15_pending_list_edit_is_lost"
   ],
   "note": "Any struct built by a program as in C03, all identities. Unmarshalled list edits of the stored struct are lost (witness)."
  },
  {
   "property": "C16",
   "status": "partial",
   "theorems": [
    "Claw.C16_list_any_round_trip_partial",
    "Claw.C16_raw_item_without_data",
    "Claw.C16_raw_refused",
    "Claw.C16_raw_list_refused",
    "Claw.C16_raw_accepted"
   ],
   "note": "All lists of structs with identities below 4 GiB; raw items that are not structs break the list (witness)."
  },
  {
   "property": "C17",
   "status": "partial",
   "theorems": [
    "Claw.C17_bits_exact",
    "Claw.C17_bits_faithful_partial",
    "Claw.C17_cleared_still_marked",
    "Claw.C17_list_not_marked",
    "Claw.C17_zero_not_marked",
    "Claw.C17_second_marshal_untracked",
    "Claw.C17_harmless_partial",
    "Claw.C17_freezes",
    "Claw.C17_large_schema_phantom"
   ],
   "note": "False as stated. Proved: the exact content of the bit field for every program (C17_bits_exact); faithfulness for programs that only set tracked fields to non-zero values; decoding is unaffected for every receiver of up to 32896 fields unless the bits spell a sizeless field, in which case every getter hangs (exact, C17_freezes); refutations for clears, lists, zero values, a second Marshal and schemas of more than 32896 fields."
  },
  {
   "property": "C18",
   "status": "partial",
   "theorems": [
    "Claw.C18_exact",
    "Claw.C18_edit_after_marshal_lost",
    "Claw.C18_edit_of_decoded_lost",
    "Claw.C18_edits_reach_message_partial"
   ],
   "note": "False as stated: edits after a Marshal, and edits of a decoded list, never reach the message (proved for every state and edit). Exact effect of every program proved (bools, numbers, strings, bytes); edits of lists created since the last marshal do reach it."
  },
  {
   "property": "C19",
   "status": "partial",
   "theorems": [
    "Claw.C19_not_larger_partial",
    "Claw.C19_last_field_partial",
    "Claw.C19_same_size_partial",
    "Claw.C19_growth_corrupts",
    "Claw.C19_shrink_misread",
    "Claw.C19_growth_not_seen"
   ],
   "note": "False as stated: a nested struct shares the parent's array with the capacity of everything behind it, so growing it overwrites the next fields (C19_growth_corrupts), and shrinking it leaves stale bytes that the receiver of the parent's message parses as fields of the parent (C19_shrink_misread). Proved for every parent, nested struct and sequence of calls: siblings read as before if the nested struct is never longer than when decoded, or if nothing follows it in the buffer; if its size never changes the parent holds exactly the edited record, in memory and on the wire. The nested struct is modelled as the shared part of the parent's array until it moves."
  },
  {
   "property": "C20",
   "status": "partial",
   "theorems": [
    "Claw.C20_unmarshal_keeps_stale_fields",
    "Claw.C20_unmarshal_replaces_partial"
   ],
   "note": "False as stated: a reused struct keeps stale index entries. Proved when the previously present fields are present in the new message."
  },
  {
   "property": "C21",
   "status": "partial",
   "theorems": [
    "Claw.C21_apply_diff_partial",
    "Claw.C21_diff_then_apply_partial",
    "Claw.C21_struct_growth_corrupts",
    "Claw.C21_struct_item_lost",
    "Claw.C21_patch_too_large"
   ],
   "note": "Proved for every pair of reachable structs: Diff returns a patch, applying it to the first reports no error, all getters then agree with the second, and a further Diff that succeeds is empty. In the hypotheses because the code does otherwise: a nested struct or list of structs present on both sides must be equal (C21_struct_growth_corrupts, C21_struct_item_lost: growing one corrupts the message), at most 10000 operations (C21_patch_too_large: Diff itself produces more), the number lists of the first struct are written (C24_unwritten_numbers_ignored), no Any or Map field and no absent list of byte slices (C22). Equality is Go's == on floats (NaN, -0). The claim is about what getters show; ListSet edits may be missing from the bytes (C24_set_not_written)."
  },
  {
   "property": "C22",
   "status": "partial",
   "theorems": [
    "Claw.C22_empty_iff_equal",
    "Claw.C22_equal_gives_empty_partial",
    "Claw.C22_unchanged_partial",
    "Claw.C22_nil_bytes_list",
    "Claw.C22_nil_bytes_list_panics",
    "Claw.C22_unsupported"
   ],
   "note": "For structs reached by any program of setters, list edits and marshals, Diff is empty exactly when every field is equal (C22_empty_iff_equal), where equality is the one Go's == gives with NaN equal to NaN: a changed NaN payload or the sign of a zero is not a difference. Missing: a list of bytes absent on one side makes Diff panic (C22_nil_bytes_list_panics), and an Any or Map field makes Diff fail even when both sides are equal (C22_unsupported), so the positive theorems exclude these."
  },
  {
   "property": "C23",
   "status": "proved",
   "theorems": [
    "Claw.C23_too_many_ops",
    "Claw.C23_within_limit",
    "Claw.C23_too_deep",
    "Claw.C23_deep_patch_rejected",
    "Claw.C23_limit_exact",
    "Claw.C23_depth_noticed_late",
    "Claw.C23_inner_ops_unlimited"
   ],
   "note": "Proved for every patch, schema and struct: the operation limit rejects before any effect, patches nested deeper than 100 are never accepted, and both limits are exact. The depth limit is noticed only when the deep operation is reached, so earlier operations stay applied (C23_depth_noticed_late), and the operation limit covers the outermost patch only (C23_inner_ops_unlimited)."
  },
  {
   "property": "C24",
   "status": "partial",
   "theorems": [
    "Claw.C24_list_edits_partial",
    "Claw.C24_struct_list_set",
    "Claw.C24_struct_list_range",
    "Claw.C24_struct_insert_duplicates",
    "Claw.C24_struct_remove_duplicates",
    "Claw.C24_struct_remove_last",
    "Claw.C24_struct_patch_negative_panics",
    "Claw.C24_set_not_written",
    "Claw.C24_unwritten_numbers_ignored"
   ],
   "note": "Proved for every reachable struct and every patch of list edits (any number and mix) on lists of bools, numbers, strings and byte slices, as the getters show them; out-of-range edits stop the patch and leave the list as it was. For lists of structs ListSet and the range checks are proved. Missing, because the code does otherwise: ListInsert and ListRemove on lists of structs write the old items twice (C24_struct_insert_duplicates, C24_struct_remove_duplicates); number lists with unwritten edits are not seen by ListInsert (C24_unwritten_numbers_ignored); a ListSet on bools, strings or byte slices of a settled struct is never marshalled (C24_set_not_written); a negative index in ListStructPatch panics (C24_struct_patch_negative_panics)."
  },
  {
   "property": "C25",
   "status": "proved",
   "theorems": [
    "Claw.C25_pack_round_trip",
    "Claw.C25_pack_rejects"
   ],
   "note": "All inputs of whole words below 2^62 bytes, any stale pooled buffers; other lengths rejected, empty gives nil."
  },
  {
   "property": "C26",
   "status": "proved",
   "theorems": [
    "Claw.C26_pack_fits",
    "Claw.C26_bound_reached"
   ],
   "note": "All inputs; the worst-case bound is reached."
  },
  {
   "property": "C27",
   "status": "partial",
   "theorems": [
    "Claw.C27_panics",
    "Claw.C27_unpack_partial"
   ],
   "note": "False as stated: panics on a truncated word and on sizes of 2^63 and above. Exact panic condition proved for allocatable sizes below 2^62; never hangs; output has the declared size."
  },
  {
   "property": "C28",
   "status": "partial",
   "theorems": [
    "Claw.Retry.C28_retry_partial",
    "Claw.Retry.C28_bounded_calls",
    "Claw.Retry.C28_one_call_too_many",
    "Claw.Retry.C28_backoff_capped",
    "Claw.Retry.C28_default_classification",
    "Claw.Retry.C28_code_is_not_consulted"
   ],
   "note": "False as documented: up to MaxAttempts+1 calls, and the code of the error is not consulted, only its text (witnesses). Exact call bound, backoff cap after the first retry and the default classification proved for all outcomes."
  },
  {
   "property": "C29",
   "status": "proved",
   "theorems": [
    "Claw.Hedge.C29_bounded_attempts",
    "Claw.Hedge.C29_success_is_first",
    "Claw.Hedge.C29_error_only_when",
    "Claw.Hedge.C29_success_if_any",
    "Claw.Hedge.C29_no_deadlock",
    "Claw.Hedge.C29_no_leak",
    "Claw.Hedge.C29_no_hedge_afterwards",
    "Claw.Hedge.C29_returns_at_once",
    "Claw.Hedge.C29_fatal_classification"
   ],
   "note": "All interleavings of the hedging state machine, any number of attempts."
  },
  {
   "property": "C30",
   "status": "proved",
   "theorems": [
    "Claw.Metadata.C30_contexts_are_values",
    "Claw.Metadata.C30_append_keeps_parent",
    "Claw.Metadata.C30_isolation",
    "Claw.Metadata.C30_case_insensitive",
    "Claw.Metadata.C30_wire_round_trip",
    "Claw.Metadata.C30_append_after_nil_metadata_panics"
   ],
   "note": "All sequences of context operations. Appending to a context that carries nil metadata panics (witness)."
  },
  {
   "property": "C31",
   "status": "partial",
   "theorems": [
    "Claw.ServiceConfig.C31_most_specific_partial",
    "Claw.ServiceConfig.C31_slash_confuses",
    "Claw.ServiceConfig.C31_setting_keeps_other",
    "Claw.ServiceConfig.C31_parse_pattern",
    "Claw.ServiceConfig.C31_apply"
   ],
   "note": "Most specific entry wins when package and service contain no '/' and no part is '*'; ambiguous otherwise (witness). Pattern parsing exact."
  },
  {
   "property": "C32",
   "status": "proved",
   "theorems": [
    "Claw.Resolver.C32_parse_exact",
    "Claw.Resolver.C32_round_trip",
    "Claw.Resolver.C32_malformed_rejected"
   ],
   "note": "All target strings: the exact result of parsing, the round trip and the rejected strings. Lower-casing is a parameter with the properties of strings.ToLower."
  },
  {
   "property": "C33",
   "status": "partial",
   "theorems": [
    "Claw.Balancer.C33_picks_a_candidate",
    "Claw.Balancer.C33_round_robin_fair_partial",
    "Claw.Balancer.C33_unfair_across_the_wrap",
    "Claw.Balancer.C33_weighted_fair_partial",
    "Claw.Balancer.C33_weight_is_the_share",
    "Claw.Balancer.C33_priority_fair_partial"
   ],
   "note": "Every picker picks a member of the candidates for every counter value. Exact fairness holds when the 64-bit counter does not wrap inside the window or the length divides 2^64; false across the wrap otherwise (witness)."
  },
  {
   "property": "C34",
   "status": "partial",
   "theorems": [
    "Claw.Registry.C34_first_registration_wins_partial",
    "Claw.Registry.C34_register_is_safe",
    "Claw.Registry.C34_slash_collision",
    "Claw.Registry.C34_listing"
   ],
   "note": "First registration wins when package and service contain no '/'; two different methods collide otherwise (witness)."
  },
  {
   "property": "C35",
   "status": "partial",
   "theorems": [
    "Claw.Chain.C35_nested_in_order",
    "Claw.Chain.C35_order_observed",
    "Claw.Chain.C35_short_circuit",
    "Claw.Chain.C35_client_stream_interceptors_ignored"
   ],
   "note": "Fails for streams of the client: their interceptors are stored and never called (C35_client_stream_interceptors_ignored). Proved for every chain of any length that is run, in every other place."
  },
  {
   "property": "C36",
   "status": "partial",
   "theorems": [
    "Claw.ErrCode.C36_code_exact",
    "Claw.ErrCode.C36_code_is_category_partial",
    "Claw.ErrCode.C36_code_none_iff",
    "Claw.ErrCode.C36_success_is_none",
    "Claw.ErrCode.C36_sync_outcomes",
    "Claw.ErrCode.C36_sync_call_may_panic",
    "Claw.ErrCode.C36_stream_outcomes",
    "Claw.ErrCode.C36_stream_error_may_be_lost",
    "Claw.ErrCode.C36_stream_error_reported",
    "Claw.ErrCode.C36_unknown_category_looks_like_success"
   ],
   "note": "Exact code for every error. A category that is a multiple of 65536 is sent as 'no error', a synchronous call may panic when the session closes and a stream may lose the error (witnesses)."
  },
  {
   "property": "C37",
   "status": "proved",
   "theorems": [
    "Claw.SrvConn.C37_no_panic",
    "Claw.SrvConn.C37_closed_is_final"
   ],
   "note": "Over every execution of the server connection machine (any frames, any handler behaviour, any interleaving): no channel is closed twice, no send on a closed channel, no negative handler count; a closed receive channel stays closed and gains no payload."
  },
  {
   "property": "C38",
   "status": "partial",
   "theorems": [
    "Claw.SrvConn.C38_ids_unique_partial",
    "Claw.SrvConn.C38_ids_wrap"
   ],
   "note": "Identifiers of accepted sessions are pairwise distinct and not 0 while fewer than 2^32 sessions were opened; beyond that they repeat and 0 is used (C38_ids_wrap), so the unbounded claim is false."
  },
  {
   "property": "C39",
   "status": "partial",
   "theorems": [
    "Claw.SrvConn.C39_no_new_sessions",
    "Claw.SrvConn.C39_success_means_done_partial",
    "Claw.SrvConn.C39_returns_early"
   ],
   "note": "Once draining no session is created. A GracefulClose that waited and returned nil left no handler running. It also returns nil at once, with handlers running, when the connection is already closed (C39_returns_early)."
  },
  {
   "property": "C40",
   "status": "proved",
   "theorems": [
    "Claw.Srv.C40_limit",
    "Claw.Srv.C40_accepts_below"
   ],
   "note": "Server machine around the connection machines: at most m accepted Serve calls in progress and at most m connections read from, for every execution; and refusal for the limit happens exactly when m calls are in progress."
  },
  {
   "property": "C41",
   "status": "partial",
   "theorems": [
    "Claw.SyncCli.C41_reply_is_ours",
    "Claw.SyncCli.C41_no_duplicates",
    "Claw.SyncCli.C41_only_one_owner_partial",
    "Claw.SyncCli.C41_reply_not_lost_partial",
    "Claw.SyncCli.C41_ids_wrap"
   ],
   "note": "Machine of any number of concurrent calls of one SyncClient and the read loop, arbitrary payloads. A returned reply came with the identifier of the call and is returned at most once: for every execution. Distinct identifiers and no lost reply: below 2^32 calls (_partial); beyond, the identifier wraps and a waiting call returns the reply to another (C41_ids_wrap). What the server sends is not tied to the requests here."
  },
  {
   "property": "C42",
   "status": "partial",
   "theorems": [
    "Claw.Frame.C42_packed_read_as_plain_fails",
    "Claw.Frame.C42_packed_read_as_empty",
    "Claw.Frame.C42_plain_read_as_packed_fails",
    "Claw.Packing.C42_second_open_lost",
    "Claw.Packing.C42_concurrent_opens_lost",
    "Claw.Packing.C42_ping_lost",
    "Claw.Packing.C42_goaway_lost",
    "Claw.Packing.C42_timeout_lost",
    "Claw.Packing.C42_open_lost",
    "Claw.Packing.C42_plain_partial",
    "Claw.Packing.C42_single_session_partial"
   ],
   "note": "Fails: with packing on, a second Open (written plain) is read packed; a ping before the OpenAck, a GoAway between the making of the session and its OpenAck, and an Open given up desynchronise the ends too (witnesses). C42_open_lost says that every further Open on a packed connection is lost. What holds: without packing nothing is ever misread (C42_plain_partial); with one session and none of those four events nothing is misread and both ends pack exactly when both want it (C42_single_session_partial). On the level of bytes: a frame read in the other form is an error or is waited for (C42_packed_read_as_plain_fails, C42_plain_read_as_packed_fails), except that a packed message of 896 to 960 KiB read as plain is taken for an empty message without error (C42_packed_read_as_empty)."
  },
  {
   "property": "C43",
   "status": "partial",
   "theorems": [
    "Claw.Pool.C43_unusable_without_health_checks",
    "Claw.Pool.C43_no_lost_wakeup",
    "Claw.Pool.C43_close_twice_panics",
    "Claw.Pool.C43_no_panic_partial",
    "Claw.Pool.C43_no_call_after_close",
    "Claw.Pool.C43_chosen_was_serving_partial",
    "Claw.Pool.C43_new_call_refused",
    "Claw.Pool.C43_late_report_closes_new",
    "Claw.Pool.C43_connection_leaks",
    "Claw.Pool.C43_call_sent_after_close",
    "Claw.Pool.C43_call_on_unhealthy",
    "Claw.Pool.C43_all_closed_partial"
   ],
   "note": "Fails in parts. Without health checks (the default) no call ever gets a connection (C43_unusable_without_health_checks). Calls are sent on connections already known to be unhealthy (C43_call_on_unhealthy); a late report of a failure closes the connection that replaced the failed one (C43_late_report_closes_new); two reports at once leave a connection that nothing closes, on which a call is answered after Close (C43_connection_leaks, C43_call_sent_after_close); two concurrent Close calls panic (C43_close_twice_panics). What holds in every execution: a call that starts after the pool is marked closed is refused, a call without a connection gets none once a Close returned (C43_new_call_refused, C43_no_call_after_close), and no waiting call misses the broadcast (C43_no_lost_wakeup). C43_no_panic_partial needs that Close calls do not overlap; C43_all_closed_partial needs that no connect task overwrites a connection. C43_chosen_was_serving_partial: the SubConn a call has chosen was connected and serving at some earlier time, and the connection it got was that of the SubConn; that this still holds when the call is sent is false."
  },
  {
   "property": "C44",
   "status": "partial",
   "theorems": [
    "Claw.Compress.C44_round_trip",
    "Claw.Compress.C44_unknown_is_an_error_partial",
    "Claw.Compress.C44_empty_is_not_checked",
    "Claw.Compress.C44_never_passed_through",
    "Claw.Compress.C44_end_to_end",
    "Claw.Compress.C44_unknown_frames_are_dropped",
    "Claw.Compress.C44_empty_output_is_not_undone",
    "Claw.Compress.C44_last_registration_wins"
   ],
   "note": "Any compressor satisfying decompress(compress x)=x. Empty payloads are not checked against the registry and frames that cannot be decompressed are dropped silently (witnesses)."
  },
  {
   "property": "C45",
   "status": "partial",
   "theorems": [
    "Claw.Credentials.C45_insecure_is_refused",
    "Claw.Credentials.C45_later_wins",
    "Claw.Credentials.C45_metadata_sent_partial",
    "Claw.Credentials.C45_case_variants_are_ambiguous",
    "Claw.Credentials.C45_token_leaks_through_the_callers_map"
   ],
   "note": "Keys without case variants. With case variants the result depends on map order, and the token is written into the caller's map (witnesses)."
  },
  {
   "property": "C46",
   "status": "partial",
   "theorems": [
    "Claw.Validate.C46_server_guards",
    "Claw.Validate.C46_client_guards_partial",
    "Claw.Validate.C46_client_skips_validators",
    "Claw.Validate.C46_stream_guards",
    "Claw.Validate.C46_stream_interceptor_panics",
    "Claw.Validate.C46_code_of_validation_errors"
   ],
   "note": "Server side for every method; client side for method names with exactly two slashes, false otherwise (witness). The stream interceptor always panics the server handler (proved for every position in a chain)."
  },
  {
   "property": "C47",
   "status": "partial",
   "theorems": [
    "Claw.Idl.C47_accepted_in_order",
    "Claw.Idl.C47_accepted_iff",
    "Claw.Idl.C47_dense_iff_partial",
    "Claw.Idl.C47_negative_accepted"
   ],
   "note": "The lines of a struct are taken as the lexer gives them; blank lines are not modelled. C47_accepted_in_order holds for any text. C47_accepted_iff gives exactly which numbers are accepted: modulo 65536, so that @-65536 is taken for 0 (C47_negative_accepted). For numbers that are not negative this is the property, with at least one and at most 65536 fields (C47_dense_iff_partial): a struct without fields is rejected."
  },
  {
   "property": "C48",
   "status": "partial",
   "theorems": [
    "Claw.Idl.C48_distinct",
    "Claw.Idl.C48_accepted_iff",
    "Claw.Idl.C48_values_kept_partial",
    "Claw.Idl.C48_width_not_checked",
    "Claw.Idl.C48_wraps",
    "Claw.Idl.C48_renders_iff_dense_partial",
    "Claw.Idl.C48_gap_not_rendered"
   ],
   "note": "Names and stored values of an accepted enum are distinct, for any text (C48_distinct). The width is not enforced (C48_width_not_checked: every number from 256 up in a uint8 enum) and numbers wrap at 65536 (C48_wraps); numbers that fit are kept (C48_values_kept_partial). Rendering succeeds exactly for the values 0..n-1, for every order of map iteration, and panics otherwise (C48_renders_iff_dense_partial, C48_gap_not_rendered)."
  },
  {
   "property": "C49",
   "status": "partial",
   "theorems": [
    "Claw.C49_replay_partial",
    "Claw.C49_long_session_rejected",
    "Claw.C49_append_rejected",
    "Claw.C49_any_rejected",
    "Claw.C49_map_calls_skipped",
    "Claw.C49_struct_append_duplicates"
   ],
   "note": "Proved for sessions of setters of numbers, bools, strings, byte slices and structs, edits of lists of numbers, bools, strings and byte slices (Append, Set, SetAll), list getters and Marshal, below 4 GiB and at most 10000 recorded operations, with clean string lists (C11) and the copy's number lists written. False for Any (rejected), maps (silently skipped), lists of structs (old items written twice) and sessions that record more than 10000 operations."
  },
  {
   "property": "C50",
   "status": "proved",
   "theorems": [
    "Claw.Cas.C50_never_lost",
    "Claw.Cas.C50_registered",
    "Claw.Cas.C50_get",
    "Claw.Cas.C50_retry_means_progress"
   ],
   "note": "Arbitrary interleavings of any number of registrations, as a state machine over load, copy and compare-and-swap steps."
  },
  {
   "property": "C51",
   "status": "partial",
   "theorems": [
    "Claw.Bits.C51_mask",
    "Claw.Bits.C51_single_bits",
    "Claw.Bits.C51_clear_range_partial",
    "Claw.Bits.C51_clear_range_too_much",
    "Claw.Bits.C51_set_value_partial",
    "Claw.Bits.C51_set_value_spills",
    "Claw.Bits.C51_clear_bytes"
   ],
   "note": "Masks and single bits for every position. SetValue is right only for values that fit a cleared range, and clearing a 64-wide range that does not start at 0 clears lower bits (witnesses)."
  },
  {
   "property": "C52",
   "status": "proved",
   "theorems": [
    "Claw.Health.C52_last_status"
   ],
   "note": "All sequences of status updates."
  },
  {
   "property": "C53",
   "status": "partial",
   "theorems": [
    "Claw.Binary.C53_direct_round_trip",
    "Claw.Binary.C53_put_round_trip_partial",
    "Claw.Binary.C53_put_signed",
    "Claw.Binary.C53_put_buffer"
   ],
   "note": "The direct 8/16/32/64-bit paths round-trip. The generic Put of int8/int16/int32 writes eight bytes or panics and PutBuffer panics for every type but int64 (proved)."
  },
  {
   "property": "C54",
   "status": "proved",
   "theorems": [
    "Claw.SrvConn.C54_payloads_in_order"
   ],
   "note": "For every execution: what a handler took followed by what waits for it is an ordered sublist of the payload frames with its identifier. Not a prefix: payloads may be dropped (too large, undecodable, or when the session is cancelled while its channel is full)."
  },
  {
   "property": "C55",
   "status": "proved",
   "theorems": [
    "Claw.SrvConn.C55_frames_bracketed"
   ],
   "note": "For every execution with fewer than 2^32 sessions: the frames of a session are none, or an OpenAck, payloads, and at most one Close at the end."
  },
  {
   "property": "C56",
   "status": "proved",
   "theorems": [
    "Claw.SrvConn.C56_all_told"
   ],
   "note": "For every execution with fewer than 2^32 sessions on the connection."
  },
  {
   "property": "C57",
   "status": "partial",
   "theorems": [
    "Claw.Srv.C57_limit_per_connection",
    "Claw.SrvConn.C57_handler_limit_partial",
    "Claw.SrvConn.C57_limit_stalls"
   ],
   "note": "Per connection: never more than the configured number of handlers (C57_handler_limit_partial; assumes that Submit of a limited pool, third-party code, waits for a place). For the whole server the claim is false: the pool is made per connection (C57_limit_per_connection). The wait happens in the read loop, so an accepted session beyond the limit stops the whole connection: not even the payload, Close or Cancel of the running session is read (C57_limit_stalls)."
  },
  {
   "property": "C58",
   "status": "partial",
   "theorems": [
    "Claw.Srv.C58_no_new_connections",
    "Claw.Srv.C58_all_closed",
    "Claw.Srv.C58_handlers_done_partial",
    "Claw.Srv.C58_shutdown_leaves_handlers"
   ],
   "note": "No connection after Shutdown and all found connections closed: for every execution. No handler running on nil: only for connections still open when Shutdown reached them (C58_handlers_done_partial); handlers of a connection whose client is gone are not waited for (C58_shutdown_leaves_handlers)."
  },
  {
   "property": "C59",
   "status": "partial",
   "theorems": [
    "Claw.SrvConn.C59_cancel_ends_session",
    "Claw.SrvConn.C59_other_sessions_partial"
   ],
   "note": "Fails: the server ignores the request identifier of Cancel and ends the session (C59_cancel_ends_session, for every reachable state). What holds: other sessions are left alone."
  },
  {
   "property": "C60",
   "status": "partial",
   "theorems": [
    "Claw.SyncCli.C60_closed_session_panics",
    "Claw.SyncCli.C60_no_panic_while_open_partial"
   ],
   "note": "Fails: a call that receives from the closed receive channel gets a zero payload, whose ReqID panics (C60_closed_session_panics, from every state with a waiting call and an open empty channel). What holds: no panic as long as the channel is open."
  },
  {
   "property": "C61",
   "status": "partial",
   "theorems": [
    "Claw.SrvConn.C61_slow_handler_blocks",
    "Claw.SrvConn.C61_room_goes_on_partial"
   ],
   "note": "Fails: the read loop waits at the full channel (capacity 16) and reads nothing else until that handler takes a payload or returns or the connection is closed (C61_slow_handler_blocks). What holds: with room in the channel the read loop goes on."
  },
  {
   "property": "C62",
   "status": "proved",
   "theorems": [
    "Claw.CliConn.C62_no_panic"
   ],
   "note": "Proved for every sequence of server frames and every interleaving; the connection model has one read loop and any number of openers, readers and calls of GracefulClose. The synchronous client (C60) is a separate machine and does panic."
  },
  {
   "property": "C63",
   "status": "partial",
   "theorems": [
    "Claw.CliConn.C63_no_new_sessions",
    "Claw.CliConn.C63_success_means_done_partial",
    "Claw.CliConn.C63_nil_with_open_sessions",
    "Claw.CliConn.C63_waits_for_nothing"
   ],
   "note": "Fails twice: GoAway closes the connection at once and GracefulClose returns nil with sessions open (C63_nil_with_open_sessions); an open that times out does not wake GracefulClose (C63_waits_for_nothing). What holds: no new sessions; the return through the drained channel means that all is closed."
  },
  {
   "property": "C64",
   "status": "partial",
   "theorems": [
    "Claw.CliConn.C64_truncated_without_error",
    "Claw.CliConn.C64_gap_without_error",
    "Claw.CliConn.C64_cancelled_without_error",
    "Claw.CliConn.C64_no_early_end_partial",
    "Claw.CliConn.C64_stream_complete_partial"
   ],
   "note": "Fails three times: lost connection, ended context and payloads too large or not decompressible give an iterator that ends without error though messages are missing (C64_truncated_without_error, C64_cancelled_without_error, C64_gap_without_error). What holds: as long as the connection stands up to the Close frame and nothing disturbs the session, the reader yields exactly the payloads not thrown away and reports the error of the Close frame, whatever happens afterwards."
  },
  {
   "property": "C65",
   "status": "partial",
   "theorems": [
    "Claw.Pool.C65_lost_connection_stays",
    "Claw.Pool.C65_one_frame_after_connect",
    "Claw.Pool.C65_checks_fail_after_connect",
    "Claw.Pool.C65_healthy_server_dropped"
   ],
   "note": "Fails: C65_lost_connection_stays proves for every execution that a connection which fails while no call is being opened on it is never replaced; C65_one_frame_after_connect and C65_checks_fail_after_connect prove for every execution that after the connect task returns (which cancels the context of the connection it made) at most one more frame is handled and no later health check is answered; C65_healthy_server_dropped is a complete run with a faultless server. These are proofs of the negation; nothing positive is claimed."
  },
  {
   "property": "C66",
   "status": "partial",
   "theorems": [
    "Claw.Frame.C66_messages_one_by_one",
    "Claw.Frame.C66_structs_one_by_one_partial",
    "Claw.Frame.C66_end_of_stream",
    "Claw.Frame.C66_cut_is_an_error_partial",
    "Claw.Frame.C66_cut_after_header_looks_like_the_end",
    "Claw.Frame.C66_pieces_do_not_matter"
   ],
   "note": "Fails at one place: a stream that ends right after the header of a message (8 bytes, packed 16) is reported as io.EOF, the regular end (C66_cut_after_header_looks_like_the_end). What holds: the same messages in the same order for every list of messages, every split and both forms (C66_messages_one_by_one for messages of struct form, packed ones whole words since others are not written packed; C66_structs_one_by_one_partial for structs, values clean as in C04); the result depends on the bytes only, hostile ones included (C66_pieces_do_not_matter); an end inside a message elsewhere is an error (C66_cut_is_an_error_partial)."
  },
  {
   "property": "C67",
   "status": "partial",
   "theorems": [
    "Claw.Frame.C67_eight_bytes_ask_for_anything",
    "Claw.Frame.C67_sixteen_bytes_ask_for_anything",
    "Claw.Frame.C67_sixteen_bytes_panic",
    "Claw.Frame.C67_received_message_partial"
   ],
   "note": "Fails: the limit is checked only on the payload field after the whole message was read. Eight bytes make a plain reader ask for any amount below 1 TiB, sixteen a packed one for any amount up to 2^62 or panic (C67_eight_bytes_ask_for_anything, C67_sixteen_bytes_ask_for_anything, C67_sixteen_bytes_panic), whatever the limit. What holds: after a message has arrived no more than its bytes was asked for, plain requests stay below 1 TiB (C67_received_message_partial). Memory is counted as the sizes passed to make; the buffer of Unpack is not counted (C27)."
  },
  {
   "property": "C68",
   "status": "partial",
   "theorems": [
    "Claw.Recycle.C68_next_message_shows_through",
    "Claw.Recycle.C68_copies_are_exact_partial",
    "Claw.Recycle.C68_server_message_changes",
    "Claw.Recycle.C68_intact_until_reuse_partial"
   ],
   "note": "Fails on the server with packing: readPackedMsg gives its buffer back to the pool while the message (and the payload sent to the handler) is a view of it, so the next message of any connection shows through (C68_next_message_shows_through, C68_server_message_changes). What holds for every interleaving: the client's copies are exact and senders write what they packed (C68_copies_are_exact_partial); a server message is intact until its buffer is given out again (C68_intact_until_reuse_partial). Messages are byte strings here; that an unmarshalled struct reads the caller's bytes is C19's model."
  },
  {
   "property": "C69",
   "status": "partial",
   "theorems": [
    "Claw.Externals.C69_imported",
    "Claw.Externals.C69_not_imported",
    "Claw.Externals.C69_edge_dots",
    "Claw.Idl.C69_types_as_written_partial",
    "Claw.Idl.C69_identifiers",
    "Claw.Idl.C69_map_values_not_checked",
    "Claw.Idl.C69_malformed_types_accepted"
   ],
   "note": "C69_types_as_written_partial holds for every accepted file and every well formed type that names only this file's identifiers, with forward references; C69_identifiers says what is found by name. C69_imported does the same for pkg.Name and []pkg.Name, given that identifiers have no dots and the files of all imports were read; C69_not_imported refuses packages that are not imported. The names within maps are never looked up (C69_map_values_not_checked), some texts that are no types are accepted (C69_malformed_types_accepted), and .Name and pkg. are accepted and make clawc panic later (C69_edge_dots). Of the file header (package, version, options, import) only the imports are a parameter."
  },
  {
   "property": "C70",
   "status": "partial",
   "theorems": [
    "Claw.Idl.C70_distinct_names_partial",
    "Claw.Idl.C70_duplicate_fields_accepted"
   ],
   "note": "Holds for structs, enums and enumerators of every accepted file (C70_distinct_names_partial); fields of a struct may have the same name (C70_duplicate_fields_accepted)."
  },
  {
   "property": "C71",
   "status": "proved",
   "theorems": [
    "Claw.Tok.C71_ingest_walk",
    "Claw.Tok.C71_walk_injective"
   ],
   "note": "C71_ingest_walk for all declarations and values, by induction over values; the model reads structs through their accessors, so it says nothing of which scalars count as set (Walk gives a token for every scalar, so that after Ingest all are). Maps whose values are bytes, lists of scalars or maps have no tokens for the values; the code generated for them does not compile, they are outside the model."
  },
  {
   "property": "C72",
   "status": "partial",
   "theorems": [
    "Claw.Tok.C72_other_declarations_partial",
    "Claw.Tok.C72_unknown_fields_ignored_partial",
    "Claw.Tok.C72_unknown_field_refused",
    "Claw.Tok.C72_unknown_any_list_refused"
   ],
   "note": "C72_other_declarations_partial says exactly when Ingest succeeds and with what; C72_unknown_fields_ignored_partial is the property for writers without fields of type []Any or map of []Any. An unknown []Any field that is not empty makes Ingest fail (C72_unknown_any_list_refused). Without the option unknown fields are refused (C72_unknown_field_refused)."
  },
  {
   "property": "C73",
   "status": "partial",
   "theorems": [
    "Claw.Tok.C73_merged_partial",
    "Claw.Tok.C73_replaced_partial",
    "Claw.Tok.C73_map_entries_partial",
    "Claw.Tok.C73_lists_extended",
    "Claw.Tok.C73_nil_keeps"
   ],
   "note": "Does not hold: lists are extended (C73_lists_extended) and nil or empty fields leave what was there (C73_nil_keeps). C73_merged_partial gives the exact result field by field; C73_replaced_partial for which fields it is the property. C73_map_entries_partial: maps get the new entries, keep the old ones of other keys, and stay sorted."
  },
  {
   "property": "C74",
   "status": "partial",
   "theorems": [
    "Claw.Tok.C74_stops_partial",
    "Claw.Tok.C74_in_order_partial",
    "Claw.Tok.C74_called_again"
   ],
   "note": "Does not hold for nested structs: the result of the callback inside a nested Walk is lost (C74_called_again). C74_stops_partial: structs with no structs in them, every callback. C74_in_order_partial: for every struct, what the callback sees up to its first false is right, and all tokens if there is none."
  },
  {
   "property": "C75",
   "status": "proved",
   "theorems": [
    "Claw.Json.C75_string_read_back",
    "Claw.Json.C75_utf8_unchanged",
    "Claw.Json.C75_injective"
   ],
   "note": "C75_string_read_back against a parser written after RFC 8259 and the definition of UTF-8, for every string of bytes; C75_utf8_unchanged and C75_injective follow."
  },
  {
   "property": "C76",
   "status": "partial",
   "theorems": [
    "Claw.Json.C76_marshal_json_partial",
    "Claw.Json.C76_struct_list_broken",
    "Claw.Json.C76_json_iff_partial",
    "Claw.Json.C76_array_partial"
   ],
   "note": "Does not hold: the structs of a list are written without commas between them, so that a list of two or more structs, at any depth, gives text that is not JSON, without an error (C76_struct_list_broken). C76_marshal_json_partial: all other structs, Any values included, down to the exact JSON value; C76_json_iff_partial says when it holds; C76_array_partial for Array. Text is modelled as lexemes; strings at the level of bytes are C75."
  },
  {
   "property": "C77",
   "status": "partial",
   "theorems": [
    "Claw.Json.C77_result_partial",
    "Claw.Json.C77_unchanged_partial",
    "Claw.Json.C77_refused",
    "Claw.Json.C77_float64_lost",
    "Claw.Json.C77_float32_lost",
    "Claw.Json.C77_bytes_lost",
    "Claw.Json.C77_large_lost",
    "Claw.Json.C77_unnamed_enum_lost"
   ],
   "note": "Does not hold. C77_result_partial gives the exact result for every declaration and value: an error if there is a map entry, an Any or a list of two structs anywhere (C77_refused), else the values of a small specification (`back`). Finite floats other than 0 of magnitude below 2^53 (2^24 for float32) never come back (C77_float64_lost, C77_float32_lost), nor do bytes (C77_bytes_lost), uint64 from 2^63 up (C77_large_lost) and enum numbers without a name (C77_unnamed_enum_lost). C77_unchanged_partial says for which structs it holds. The decoder of JSON text is modelled after its documentation."
  },
  {
   "property": "C78",
   "status": "partial",
   "theorems": [
    "Claw.Json.C78_rest_ignored",
    "Claw.Json.C78_truncated_accepted",
    "Claw.Json.C78_string_for_number",
    "Claw.Json.C78_number_for_string",
    "Claw.Json.C78_number_wraps"
   ],
   "note": "Does not hold: what follows the object is ignored (C78_rest_ignored), some truncated texts are accepted (C78_truncated_accepted), strings are taken for numbers and numbers for strings (C78_string_for_number, C78_number_for_string), numbers wrap (C78_number_wraps)."
  },
  {
   "property": "C79",
   "status": "partial",
   "theorems": [
    "Claw.Json.C79_string_keys_partial",
    "Claw.Json.C79_number_keys_lost",
    "Claw.Json.C79_same_names"
   ],
   "note": "C79_string_keys_partial: holds for UTF-8 string keys. All other keys are written as the empty name (C79_number_keys_lost, C79_same_names), so that such a map with two entries is no longer readable."
  },
  {
   "property": "C80",
   "status": "proved",
   "theorems": [
    "Claw.Json.C80_bytes_decodable",
    "Claw.Json.C80_bytes_list_decodable",
    "Claw.Json.C80_any_decodable",
    "Claw.Json.C80_any_typed",
    "Claw.Json.C80_injective"
   ],
   "note": "C80_bytes_decodable, C80_bytes_list_decodable, C80_any_decodable, C80_any_typed against readers of base64 and hexadecimal written after RFC 4648; C80_injective. The lookup and decoding of registered types is a parameter; in the output of Marshal the Any objects stand where C76 says."
  },
  {
   "property": "C81",
   "status": "partial",
   "theorems": [
    "Claw.Text.C81_escape_partial",
    "Claw.Text.C81_unchanged_partial",
    "Claw.Text.C81_quote_space_lost"
   ],
   "note": "Does not hold: a string comes back as another one, without an error, exactly when its first white space follows a quote or a quote and a comma (C81_quote_space_lost); C81_unchanged_partial: all others that are UTF-8 come back. C81_escape_partial: the escapes alone are undone for every string. The lexer halfpike is modelled after its documentation."
  },
  {
   "property": "C82",
   "status": "partial",
   "theorems": [
    "Claw.Text.C82_result_partial",
    "Claw.Text.C82_unchanged_partial",
    "Claw.Text.C82_container_refused",
    "Claw.Text.C82_true_lost",
    "Claw.Text.C82_large_refused",
    "Claw.Text.C82_whole64_lost",
    "Claw.Text.C82_whole32_lost",
    "Claw.Text.C82_special_lost",
    "Claw.Text.C82_bytes_lost",
    "Claw.Text.C82_unnamed_enum_lost"
   ],
   "note": "Does not hold. C82_result_partial gives the exact result for every declaration and value (maps whose first key has white space excepted): an error if there is a list, a map, an Any, a nil struct or a uint64 from 2^63 up (C82_container_refused, C82_large_refused), else the values of a small specification (`back`). true comes back as false (C82_true_lost), whole floats, infinities and NaN as other floats (C82_whole64_lost, C82_whole32_lost, C82_special_lost), bytes as their base64 unless in hex (C82_bytes_lost), enum numbers without a name as 0 (C82_unnamed_enum_lost). C82_unchanged_partial says for which structs it holds. halfpike, strconv.AppendFloat and strconv.ParseFloat are taken from their documentation (FloatsOk)."
  },
  {
   "property": "C83",
   "status": "partial",
   "theorems": [
    "Claw.Text.C83_rest_ignored",
    "Claw.Text.C83_line_rest_ignored",
    "Claw.Text.C83_number_wraps",
    "Claw.Text.C83_number_for_string",
    "Claw.Text.C83_word_for_number",
    "Claw.Text.C83_string_for_number",
    "Claw.Text.C83_backquote_comma"
   ],
   "note": "Does not hold: what follows the closing brace or the value on its line is ignored (C83_rest_ignored, C83_line_rest_ignored), words and strings are taken for numbers and numbers for strings (C83_word_for_number, C83_string_for_number, C83_number_for_string), numbers wrap (C83_number_wraps), a comma after a backquoted string becomes part of it (C83_backquote_comma)."
  },
  {
   "property": "C84",
   "status": "partial",
   "theorems": [
    "Claw.Text.C84_comments_partial",
    "Claw.Text.C84_after_comment_lost",
    "Claw.Text.C84_short_comment"
   ],
   "note": "C84_comments_partial: holds at the beginning and after every line that no backquote and no asterisk precedes, for comments that do not start with /*/ and have nothing after them. Does not hold for others: the rest of the line after a comment is ignored (C84_after_comment_lost), a comment that starts with /*/ ends at once (C84_short_comment)."
  },
  {
   "property": "C85",
   "status": "partial",
   "theorems": [
    "Claw.Text.C85_list_partial",
    "Claw.Text.C85_bool_list_partial",
    "Claw.Text.C85_string_list_partial",
    "Claw.Text.C85_list_refused",
    "Claw.Text.C85_struct_list_partial",
    "Claw.Text.C85_map_partial",
    "Claw.Text.C85_bool_map_partial",
    "Claw.Text.C85_string_map_partial",
    "Claw.Text.C85_map_refused",
    "Claw.Text.C85_true_lost",
    "Claw.Text.C85_bool_partial",
    "Claw.Text.C85_null_string",
    "Claw.Text.C85_null_refused",
    "Claw.Text.C85_hex_number_lost",
    "Claw.Text.C85_second_field_lost",
    "Claw.Text.C85_any_refused",
    "Claw.Text.C85_backquote_partial",
    "Claw.Text.C85_backquote_words_lost"
   ],
   "note": "Holds for lists of whole numbers, booleans and strings without white space if a blank precedes every item and the closing bracket (C85_list_partial, C85_bool_list_partial, C85_string_list_partial), for lists of structs with each brace on a line of its own (C85_struct_list_partial), for maps with a blank before the colon (C85_map_partial, C85_string_map_partial), for strings over lines of which none is blank and the first is one word (C85_backquote_partial) and for true, false and null without a comma (C85_bool_partial). Does not hold for the documented forms: lists and maps without these blanks, null with a comma and Any are refused (C85_list_refused, C85_map_refused, C85_null_refused, C85_any_refused), true is read as false (C85_true_lost), null as a string (C85_null_string), hexadecimal numbers as 0 (C85_hex_number_lost), the second field of a line is ignored (C85_second_field_lost), and so is the first line of a string after its first word (C85_backquote_words_lost)."
  },
  {
   "property": "C86",
   "status": "partial",
   "theorems": [
    "Claw.Mod.C86_read_partial",
    "Claw.Mod.C86_no_versions_no_lists",
    "Claw.Mod.C86_require_refused",
    "Claw.Mod.C86_list_refused",
    "Claw.Mod.C86_comment_refused",
    "Claw.Mod.C86_example_refused",
    "Claw.Mod.C86_extra_refused_partial",
    "Claw.Mod.C86_second_refused_partial"
   ],
   "note": "C86_read_partial: holds for every file of a module line, blank lines, comments with a blank after //, one replace block and the public setting, in any order. Does not hold for the rest: a require block is refused whatever is in it (C86_require_refused), so is every list of ACLs (C86_list_refused) and every comment without a blank after // (C86_comment_refused), and a file that does not start with the module line, as in the documentation (C86_example_refused). No file at all is read with a required version or with ACLs other than the public setting (C86_no_versions_no_lists)."
  },
  {
   "property": "C87",
   "status": "partial",
   "theorems": [
    "Claw.Mod.C87_work_checked",
    "Claw.Mod.C87_work_further_refused",
    "Claw.Mod.C87_work_partial",
    "Claw.Mod.C87_module_partial",
    "Claw.Mod.C87_in_repo_iff",
    "Claw.Mod.C87_new_module_in_repo",
    "Claw.Mod.C87_hyphen_refused"
   ],
   "note": "C87_work_partial for repositories without // and vendor directories that do not start with /; C87_in_repo_iff and C87_new_module_in_repo in full; C87_module_partial if the last part of the module path is a valid package name. Not so otherwise: clawc init in a directory with, for example, a hyphen in its name writes a claw.mod file that is refused (C87_hyphen_refused)."
  },
  {
   "property": "C88",
   "status": "partial",
   "theorems": [
    "Claw.Mod.C88_refused_partial",
    "Claw.Mod.C88_never_replaced",
    "Claw.Mod.C88_panics",
    "Claw.Mod.C88_read_partial"
   ],
   "note": "Does not hold: every file in the documented form makes clawc panic (C88_panics), and no file whatsoever is read with a replacement (C88_never_replaced), since the file is checked against the imports of a file that is nil. C88_read_partial: with imports to check against, the file would be read as the replacements it lists."
  },
  {
   "property": "C89",
   "status": "partial",
   "theorems": [
    "Claw.Mod.C89_read_back_partial",
    "Claw.Mod.C89_importable_refused"
   ],
   "note": "C89_read_back_partial: holds for modules that nobody may import. Does not hold for the others: the file written for a module that is public is refused (C89_importable_refused). No module read from a file has required versions (C86_no_versions_no_lists)."
  },
  {
   "property": "C90",
   "status": "partial",
   "theorems": [
    "Claw.Vendor.C90_graph",
    "Claw.Vendor.C90_error",
    "Claw.Vendor.C90_ends",
    "Claw.Vendor.C90_succeeds",
    "Claw.Vendor.C90_get_panics",
    "Claw.Vendor.C90_replaced"
   ],
   "note": "C90_graph, C90_error, C90_ends and C90_succeeds for `clawc`, for root files that have no required version of their own (no file is read with a required version: no_version). Does not hold for `clawc get`: outside of a git repository it panics for every package that is not at a local path (C90_get_panics)."
  },
  {
   "property": "C91",
   "status": "partial",
   "theorems": [
    "Claw.Vendor.C91_each_once",
    "Claw.Vendor.C91_importers_first",
    "Claw.Vendor.C91_dependencies_never_first",
    "Claw.Vendor.C91_fails_iff",
    "Claw.Vendor.C91_collected"
   ],
   "note": "C91_each_once, C91_fails_iff and C91_collected: every package once, an order exactly if there is no cycle, always an order for packages that were collected. Does not hold for the order: each package comes before those that it imports (C91_importers_first), never after (C91_dependencies_never_first), as the list is reversed although the visit already puts dependencies first."
  },
  {
   "property": "C92",
   "status": "partial",
   "theorems": [
    "Claw.Vendor.C92_check_iff_partial",
    "Claw.Vendor.C92_alike_let_in",
    "Claw.Vendor.C92_not_enforced",
    "Claw.Vendor.C92_lists_not_enforced",
    "Claw.Vendor.C92_private_refused_partial"
   ],
   "note": "Does not hold: the claw.mod file of a package that is not at a local path is not looked at (C92_not_enforced), one with a list of rules is taken for none (C92_lists_not_enforced), and a rule pre/* lets in every path that begins with pre (C92_alike_let_in). C92_check_iff_partial: what the check of a module file decides, exactly; C92_private_refused_partial: a package at a local path with a claw.mod file without rules is refused."
  },
  {
   "property": "C93",
   "status": "partial",
   "theorems": [
    "Claw.Vendor.C93_read",
    "Claw.Vendor.C93_read_fails_iff",
    "Claw.Vendor.C93_vendored",
    "Claw.Vendor.C93_vendored_cycles_accepted"
   ],
   "note": "C93_read and C93_read_fails_iff in full for the reader of the repository; C93_vendored: what the reader of the vendor directory reads. Does not hold for the latter's cycles: those that do not go through the file to be compiled are accepted (C93_vendored_cycles_accepted). Replacements are left out, see C88."
  },
  {
   "property": "C94",
   "status": "partial",
   "theorems": [
    "Claw.Vendor.C94_inside_partial",
    "Claw.Vendor.C94_outside_partial",
    "Claw.Vendor.C94_alike_confused"
   ],
   "note": "C94_inside_partial for paths below the repository in which its path does not occur again; C94_outside_partial for paths that do not begin with that of the repository. Does not hold for paths that begin alike, such as github.com/me/repository in github.com/me/repo (C94_alike_confused)."
  },
  {
   "property": "C95",
   "status": "partial",
   "theorems": [
    "Claw.Vendor.C95_tags_never",
    "Claw.Vendor.C95_version_taken_for_hash",
    "Claw.Vendor.C95_hash_partial",
    "Claw.Vendor.C95_v_panics",
    "Claw.Vendor.C95_spec_partial"
   ],
   "note": "C95_spec_partial: the argument is split at the first sign, for packages and versions without white space. C95_hash_partial: a version without a full stop is taken for a hash. Does not hold for tags: none is ever taken, since git names them refs/tags/\u2026 (C95_tags_never; a hypothesis about go-git); a version such as v1.2.3 is taken for a hash (C95_version_taken_for_hash); the version v makes clawc panic (C95_v_panics)."
  },
  {
   "property": "C96",
   "status": "partial",
   "theorems": [
    "Claw.Refl.C96_set_partial",
    "Claw.Refl.C96_get_partial",
    "Claw.Refl.C96_set_get_partial",
    "Claw.Refl.C96_unset_nil",
    "Claw.Refl.C96_empty_panics",
    "Claw.Refl.C96_enum_partial",
    "Claw.Refl.C96_unnamed_panics",
    "Claw.Refl.C96_imported_panics"
   ],
   "note": "C96_set_partial: Set of a bool, number, bytes or string that is not empty gives the struct that the generated setter gives, for any struct (float32 values that survive the conversion to float64 and back, Exact). C96_get_partial, C96_set_get_partial: a value other than the zero value is read back, Has is true, reading does not change the bytes. C96_enum_partial: enums whose group is found and whose number has a name. Does not hold for fields that are not set (nil instead of the default, C96_unset_nil), empty strings and nil bytes (Set panics, C96_empty_panics), enum numbers without a name (C96_unnamed_panics) and 16-bit enums of other packages (C96_imported_panics)."
  },
  {
   "property": "C97",
   "status": "partial",
   "theorems": [
    "Claw.Refl.C97_copy_partial",
    "Claw.Refl.C97_containers_refused"
   ],
   "note": "C97_copy_partial: for structs whose populated fields are plain values, enums with names and nested structs of any content and depth. Does not hold for structs with a populated list, map or Any field: the copy fails (C97_containers_refused)."
  },
  {
   "property": "C98",
   "status": "partial",
   "theorems": [
    "Claw.Refl.C98_numbers_partial",
    "Claw.Refl.C98_structs_partial",
    "Claw.Refl.C98_strings_lost",
    "Claw.Refl.C98_bytes_empty",
    "Claw.Refl.C98_bools_padded",
    "Claw.Refl.C98_pending_unseen"
   ],
   "note": "C98_numbers_partial, C98_structs_partial: number lists and struct lists in the bytes of the struct are read as they are. Does not hold for lists of strings (read as empty, hidden from the accessor and lost by a later append, C98_strings_lost), lists of bytes (C98_bytes_empty), lists of bools (padded to a multiple of 64, C98_bools_padded) and items not yet marshaled (C98_pending_unseen)."
  },
  {
   "property": "C99",
   "status": "partial",
   "theorems": [
    "Claw.Refl.C99_clear_partial",
    "Claw.Refl.C99_others_kept"
   ],
   "note": "C99_clear_partial: bool, number, enum, string, bytes and struct fields. Does not hold for list, map and Any fields, which Clear leaves alone (C99_others_kept)."
  },
  {
   "property": "C100",
   "status": "partial",
   "theorems": [
    "Claw.Refl.C100_plain_partial",
    "Claw.Refl.C100_unsettable",
    "Claw.Refl.C100_panics",
    "Claw.Refl.C100_wrong_type"
   ],
   "note": "C100_plain_partial: bool and number fields, and enum fields described with a group that has the value 0. Does not hold for strings, bytes and lists (Set of the new value panics, C100_unsettable), maps, Any, struct lists of generated structs and enums of nested structs (NewField panics, C100_panics), and structs (the new struct has the type of its parent, C100_wrong_type)."
  },
  {
   "property": "C101",
   "status": "partial",
   "theorems": [
    "Claw.Refl.C101_plain_partial",
    "Claw.Refl.C101_list_panics",
    "Claw.Refl.C101_unset_fails"
   ],
   "note": "C101_plain_partial: bools, numbers, bytes, strings, enums with names and the invalid value. Does not hold for lists (C101_list_panics), structs with a field that is not set (C101_unset_fails) and enums without a name or group (C96_unnamed_panics, C96_imported_panics)."
  },
  {
   "property": "C102",
   "status": "partial",
   "theorems": [
    "Claw.RpcReflect.C102_config",
    "Claw.RpcReflect.C102_tcp_partial",
    "Claw.RpcReflect.C102_token",
    "Claw.RpcReflect.C102_http_partial",
    "Claw.RpcReflect.C102_forwarded",
    "Claw.RpcReflect.C102_unread",
    "Claw.RpcReflect.C102_zone"
   ],
   "note": "C102_tcp_partial is the claim for a connection whose address is the peer's own (TCP), with the ranges spelled out bit by bit in Spec/Range, and says which error an address outside them gets; C102_http_partial is the same for an HTTP request without a forwarding header whose peer has no zone. The claim fails otherwise: the address in `X-Forwarded-For`, which the caller writes, is the one checked, whoever the peer is (C102_forwarded); when no address can be read from the transport's (a header that is no address, a Unix socket, no address at all) the ranges are not looked at (C102_unread), which is the case of a link-local IPv6 peer over HTTP (C102_zone). The token is checked always (C102_token). Reading IPv6 texts is a parameter, lower-casing too."
  },
  {
   "property": "C103",
   "status": "partial",
   "theorems": [
    "Claw.RpcReflect.C103_exact",
    "Claw.RpcReflect.C103_sorted",
    "Claw.RpcReflect.C103_deterministic",
    "Claw.RpcReflect.C103_service",
    "Claw.RpcReflect.C103_method",
    "Claw.RpcReflect.C103_registered",
    "Claw.RpcReflect.C103_found_partial",
    "Claw.RpcReflect.C103_slash"
   ],
   "note": "C103_exact, C103_sorted, C103_deterministic, C103_service and C103_method are about the handlers the registry gives, C103_registered says these are the ones a call would find under names without `/` (any registrations). C103_found_partial adds that this is what was registered if no package or service has a `/` in its name; C103_slash: one that has is never found, though it can be called (its method is listed under another package and service)."
  },
  {
   "property": "C104",
   "status": "proved",
   "theorems": [
    "Claw.Transport.C104_whole",
    "Claw.Transport.C104_exact",
    "Claw.Transport.C104_order",
    "Claw.Transport.C104_stable",
    "Claw.Transport.C104_buffer"
   ],
   "note": "C104_whole, C104_exact, C104_order and C104_stable are over every run of the transition system of Model/Transport (two mutexes, any number of goroutines, any network failure), client and server; C104_buffer is the step from bytes written through bufio.Writer to the connection, for every buffer size."
  },
  {
   "property": "C105",
   "status": "partial",
   "theorems": [
    "Claw.Transport.C105_ends",
    "Claw.Transport.C105_server",
    "Claw.Transport.C105_client_partial",
    "Claw.Transport.C105_deadlock",
    "Claw.Transport.C105_reconnect",
    "Claw.Transport.C105_blocked"
   ],
   "note": "C105_ends: from any reachable state a run without new calls is finite and ends with every call returned or in one kind of deadlock; the server transport has none (C105_server), the client has none unless a Write failed and waits for the other lock (C105_client_partial). The claim fails: a Write that fails while Close (C105_deadlock) or Reconnect (C105_reconnect) waits for the write lock never returns, nor does the other, nor any later call; and Close neither interrupts a Write the other side does not read, nor returns (C105_blocked, both transports)."
  },
  {
   "property": "C106",
   "status": "partial",
   "theorems": [
    "Claw.Transport.C106_closed_partial",
    "Claw.Transport.C106_server",
    "Claw.Transport.C106_after",
    "Claw.Transport.C106_leak"
   ],
   "note": "C106_closed_partial needs that no two goroutines connect at the same time; C106_server has no such condition; C106_after is the second half of the claim. The claim fails for two Reconnect calls at the same time: one connection is never closed (C106_leak)."
  },
  {
   "property": "C107",
   "status": "partial",
   "theorems": [
    "Claw.Listener.C107_once",
    "Claw.Listener.C107_kept_partial",
    "Claw.Listener.C107_lost",
    "Claw.Listener.C107_order_partial",
    "Claw.Listener.C107_server_close",
    "Claw.Listener.C107_closed",
    "Claw.Listener.C107_unblocked"
   ],
   "note": "C107_once: no connection is returned twice, in any run. C107_kept_partial and C107_order_partial need that no context of an Accept is cancelled; C107_order_partial is about calls that do not overlap. C107_closed and C107_unblocked hold in any run; C107_unblocked says a waiting call can end by its own steps, not that the scheduler runs them. The claim fails otherwise: after a cancelled Accept one connection is taken by its goroutine and never returned or closed, closing the listener included (C107_lost); Server.Close closes no connection being served (C107_server_close)."
  },
  {
   "property": "C108",
   "status": "partial",
   "theorems": [
    "Claw.Listener.C108_listen",
    "Claw.Listener.C108_foreign",
    "Claw.Listener.C108_mode_partial",
    "Claw.Listener.C108_window",
    "Claw.Listener.C108_alive_partial",
    "Claw.Listener.C108_close",
    "Claw.Listener.C108_steal",
    "Claw.Listener.C108_foreign_close"
   ],
   "note": "C108_listen, C108_foreign and C108_close hold for every state of the files. C108_mode_partial needs a process mask that leaves no more than the mode; otherwise everyone may connect between bind and chmod (C108_window). C108_alive_partial needs that no listener is made on the path of an open one; otherwise the first is cut off and closing it removes the second one's socket (C108_steal). Close also removes a file that is not its socket (C108_foreign_close). Chmod and Remove on one's own files are assumed to succeed."
  },
  {
   "property": "C109",
   "status": "partial",
   "theorems": [
    "Claw.Otel.C109_result",
    "Claw.Otel.C109_counted",
    "Claw.Otel.C109_code_partial",
    "Claw.Otel.C109_code_lost",
    "Claw.Otel.C109_chain",
    "Claw.Otel.C109_stream_code_lost"
   ],
   "note": "C109_result and C109_counted hold for every configuration, handler and request (unary, server and client). The code is kept for an error without a category of rpc/errors (C109_code_partial). It fails for every error that has one: the interceptor wraps the error in an Error whose category is of another package, so the client gets 13, 4 or 1 (C109_code_lost, C109_stream_code_lost), anywhere in a chain whose outer interceptors pass the error on or wrap it (C109_chain). errors.E of the base library (not in the repository) is taken to wrap the error given."
  },
  {
   "property": "C110",
   "status": "partial",
   "theorems": [
    "Claw.Otel.C110_config",
    "Claw.Otel.C110_decision",
    "Claw.Otel.C110_ignored",
    "Claw.Otel.C110_sampled"
   ],
   "note": "C110_config and C110_decision are about what New accepts and what ShouldTrace answers, with ranges spelled out bit by bit; C110_sampled: a call the sampler takes is traced. The claim fails: no interceptor calls ShouldTrace, so a call that a rule names is not traced if the sampler does not take it (C110_ignored). Reading IPv6 texts is a parameter."
  },
  {
   "property": "C111",
   "status": "partial",
   "theorems": [
    "Claw.HttpClient.C111_released",
    "Claw.HttpClient.C111_calls",
    "Claw.HttpClient.C111_reconnect_ok",
    "Claw.HttpClient.C111_nil_body"
   ],
   "note": "C111_released and C111_calls hold in every interleaving; that a call waiting on a closed pipe or a given-up request returns is what Go's io.Pipe and HTTP library promise. The claim fails for connecting: a Reconnect in progress returns no error after Close has returned (C111_reconnect_ok), and Close between the two parts of connect sends a request with a nil body, which panics in the HTTP library (C111_nil_body)."
  },
  {
   "property": "C112",
   "status": "partial",
   "theorems": [
    "Claw.HttpClient.C112_pipe",
    "Claw.HttpClient.C112_stream_partial",
    "Claw.HttpClient.C112_up_partial",
    "Claw.HttpClient.C112_split",
    "Claw.HttpClient.C112_nil_write",
    "Claw.HttpClient.C112_killed",
    "Claw.HttpClient.C112_no_error"
   ],
   "note": "C112_pipe holds in every interleaving. C112_stream_partial and C112_up_partial need that no Reconnect begins while another is going on. The claim fails otherwise: one Write is split between two connections (C112_split), Write dereferences nil (C112_nil_write), a failing Reconnect takes down the connection another has just reported (C112_killed), and Reconnect reports success without a connection (C112_no_error)."
  },
  {
   "property": "C113",
   "status": "partial",
   "theorems": [
    "Claw.HttpClient.C113_kept_partial",
    "Claw.HttpClient.C113_context_ends",
    "Claw.HttpClient.C113_always_given_up",
    "Claw.HttpClient.C113_connected_after_failure",
    "Claw.HttpClient.C113_old_error",
    "Claw.HttpClient.C113_no_timeout"
   ],
   "note": "C113_kept_partial: the newest request is kept up as long as the context its Dial or Reconnect was given lasts. The claim fails otherwise: the connection ends with the context given to Dial (C113_context_ends, in general C113_always_given_up), Connected stays true after a failure (C113_connected_after_failure), Err reports an error of the old connection (C113_old_error), and the dial timeout is never used (C113_no_timeout)."
  },
  {
   "property": "C114",
   "status": "partial",
   "theorems": [
    "Claw.HttpServer.C114_served_iff",
    "Claw.HttpServer.C114_client_served",
    "Claw.HttpServer.C114_version"
   ],
   "note": "C114_served_iff and C114_client_served give the first three claims; header names are taken as canonical. The claim on versions fails: neither side looks at the version, and the client takes any 200 (C114_version)."
  },
  {
   "property": "C115",
   "status": "partial",
   "theorems": [
    "Claw.HttpServer.C115_after_return",
    "Claw.HttpServer.C115_close_answer",
    "Claw.HttpServer.C115_stream",
    "Claw.HttpServer.C115_closed_calls",
    "Claw.HttpServer.C115_blocked"
   ],
   "note": "C115_after_return, C115_stream, C115_closed_calls and C115_close_answer hold in every interleaving. The claim that Close ends a call in progress fails: Close, and so ServeHTTP, waits behind a Write that waits for the peer (C115_blocked)."
  },
  {
   "property": "C116",
   "status": "partial",
   "theorems": [
    "Claw.Resolve.C116_addresses",
    "Claw.Resolve.C116_dialable",
    "Claw.Resolve.C116_authority",
    "Claw.Resolve.C116_no_srv",
    "Claw.Resolve.C116_bracketed",
    "Claw.Resolve.C116_empty_port"
   ],
   "note": "C116_addresses, C116_dialable and C116_authority for hosts and IPs alone and for host:port and [host]:port, assuming that the text of an IP has no brackets and not exactly one colon. Does not hold for the rest: SRV records are never used (C116_no_srv), an IPv6 address in brackets without a port is looked up as a name and fails (C116_bracketed), an empty port is left empty (C116_empty_port)."
  },
  {
   "property": "C117",
   "status": "partial",
   "theorems": [
    "Claw.Resolve.C117_only_its_addresses",
    "Claw.Resolve.C117_bare",
    "Claw.Resolve.C117_passthrough",
    "Claw.Resolve.C117_all_tried_partial",
    "Claw.Resolve.C117_one_try",
    "Claw.Resolve.C117_no_fallback"
   ],
   "note": "C117_only_its_addresses, C117_bare and C117_passthrough in full, the latter two with the pass-through resolver registered. The last claim fails: one address is tried per call (C117_one_try), and the pickers by priority never reach another one (C117_no_fallback). C117_all_tried_partial: with the round robin picker, as many calls as there are addresses try each of them once."
  },
  {
   "property": "C118",
   "status": "proved",
   "theorems": [
    "Claw.HealthService.C118_check",
    "Claw.HealthService.C118_history"
   ],
   "note": "C118_history in full; C118_check for a server in any state. The messages are those of the model of the wire format."
  },
  {
   "property": "C119",
   "status": "partial",
   "theorems": [
    "Claw.SrvStream.C119_in_order",
    "Claw.SrvStream.C119_complete",
    "Claw.SrvStream.C119_drains",
    "Claw.SrvStream.C119_returns",
    "Claw.SrvStream.C119_stops",
    "Claw.SrvStream.C119_no_error"
   ],
   "note": "C119_in_order, C119_complete, C119_drains, C119_returns and C119_stops in every interleaving. The last claim fails: Err gives no error, whatever happens, so a stream that was cut looks like one that has ended (C119_no_error)."
  },
  {
   "property": "C120",
   "status": "partial",
   "theorems": [
    "Claw.SrvStream.C120_handed_on_partial",
    "Claw.SrvStream.C120_refused",
    "Claw.SrvStream.C120_own_stream_panics",
    "Claw.SrvStream.C120_context_of_stream",
    "Claw.SrvStream.C120_send_lost",
    "Claw.SrvStream.C120_send"
   ],
   "note": "C120_handed_on_partial for chains that hand on the stream they got; C120_refused and C120_send for the two kinds of streams on which the server sends. Does not hold for the rest: an interceptor that hands on a stream of its own makes the server panic (C120_own_stream_panics), the stream keeps the context it was made with, so a context with a time limit does not end Recv (C120_context_of_stream), and Send on a stream on which only the client sends succeeds and sends nothing (C120_send_lost)."
  },
  {
   "property": "C121",
   "status": "partial",
   "theorems": [
    "Claw.SrvStream.C121_merged",
    "Claw.SrvStream.C121_sent",
    "Claw.SrvStream.C121_lost",
    "Claw.SrvStream.C121_shared"
   ],
   "note": "C121_merged and C121_sent: the trailer and the Close message, for maps that are not changed after the call. Does not hold for the rest: the client never shows a trailer (C121_lost), and only the metadata of the first call are copied, those of later calls are shared with the caller (C121_shared)."
  },
  {
   "property": "C122",
   "status": "partial",
   "theorems": [
    "Claw.CliSend.C122_sent",
    "Claw.CliSend.C122_order",
    "Claw.CliSend.C122_closed",
    "Claw.CliSend.C122_once",
    "Claw.CliSend.C122_delivered",
    "Claw.CliSend.C122_after_failure",
    "Claw.CliSend.C122_nothing_else",
    "Claw.CliSend.C122_racing",
    "Claw.CliSend.C122_racing_close",
    "Claw.CliSend.C122_after_cancel",
    "Claw.CliSend.C122_after_end"
   ],
   "note": "C122_sent, C122_order, C122_closed, C122_once, C122_delivered, C122_nothing_else and C122_after_failure (nothing is written after a write that failed) in every interleaving; that what is written arrives (no lost connection, nothing too large for the server) is a hypothesis of C122_delivered, as is that the handler's context does not end. Packing is left out (C42). The last claim fails: a Send during CloseSend or Close (C122_racing, C122_racing_close), after Cancel (C122_after_cancel) and after the server has ended the call (C122_after_end) returns without an error, and the message is dropped."
  },
  {
   "property": "C123",
   "status": "partial",
   "theorems": [
    "Claw.GenGo.C123_cycle_iff",
    "Claw.GenGo.C123_refs_partial",
    "Claw.GenGo.C123_methods_partial",
    "Claw.GenGo.C123_valid_partial",
    "Claw.GenGo.C123_careful_valid",
    "Claw.GenGo.C123_recursive_fails",
    "Claw.GenGo.C123_linked_list",
    "Claw.GenGo.C123_field_clash",
    "Claw.GenGo.C123_method_clash",
    "Claw.GenGo.C123_struct_clash",
    "Claw.GenGo.C123_package_clash",
    "Claw.GenGo.C123_int8_fails",
    "Claw.GenGo.C123_map_value_fails"
   ],
   "note": "C123_cycle_iff: for every accepted schema there is no initialisation cycle exactly if no struct holds itself. C123_valid_partial: an accepted schema is fine if its names are distinct and safe (not NewX, XRaw, SetX, XLen and so on, and none of the names all structs or packages have), there is no int8 field with IsSet on, map values are scalars or structs of the schema and no struct holds itself (met by C123_careful_valid). All other schemas fail or are not covered: C123_recursive_fails (with C123_linked_list), C123_field_clash, C123_method_clash, C123_struct_clash, C123_package_clash, C123_int8_fails, C123_map_value_fails. Bodies of functions, types and imports are not modelled."
  },
  {
   "property": "C124",
   "status": "partial",
   "theorems": [
    "Claw.RawConv.C124_exact_partial",
    "Claw.RawConv.C124_round_trip_partial",
    "Claw.RawConv.C124_back_partial",
    "Claw.RawConv.C124_map_order",
    "Claw.RawConv.C124_nan_order",
    "Claw.RawConv.C124_any_lost",
    "Claw.RawConv.C124_any_bytes",
    "Claw.RawConv.C124_empty_lost",
    "Claw.RawConv.C124_zero_struct",
    "Claw.RawConv.C124_nil_items",
    "Claw.RawConv.C124_minus_zero"
   ],
   "note": "C124_exact_partial gives exactly what comes back for every Raw struct of the types of its schema; C124_round_trip_partial: the Raw struct itself, if it has none of the values that are lost; C124_back_partial: a struct built by any calls, converted and back, marshals to the same bytes if nothing is in fields of type any or []any; C124_map_order: the order of the entries of a map makes no difference. Lost: C124_any_lost and C124_any_bytes (any and []any are never converted in either direction), C124_empty_lost (empty slices come back nil), C124_zero_struct (pointers to zero structs come back nil), C124_nil_items (nil items vanish and the others move), C124_minus_zero, C124_nan_order (several NaN keys). Missing: values whose padding is taken for items (C06), messages of 4 GiB, maps of structs."
  },
  {
   "property": "C125",
   "status": "partial",
   "theorems": [
    "Claw.Options.C125_read_back",
    "Claw.Options.C125_sound_partial",
    "Claw.Options.C125_file_iff",
    "Claw.Options.C125_junk_args",
    "Claw.Options.C125_junk_tail",
    "Claw.Options.C125_no_comma",
    "Claw.Options.C125_bracket",
    "Claw.Options.C125_not_exact"
   ],
   "note": "C125_read_back: every well-formed line of any layout gives exactly its options. C125_sound_partial: whatever is accepted begins and ends as it should and gives names and arguments of the right runes. C125_file_iff: the file is valid exactly if the parser gives the one option IsSet(). The other direction fails (C125_not_exact): unquoted words between the parentheses are dropped (C125_junk_args: IsSet(false) turns IsSet on), a word behind the last option is dropped (C125_junk_tail), commas may be left out (C125_no_comma), brackets within names are dropped (C125_bracket). The lexer that splits off the word options is trusted."
  },
  {
   "property": "C126",
   "status": "partial",
   "theorems": [
    "Claw.Options.C126_valid_iff_partial",
    "Claw.Options.C126_negative"
   ],
   "note": "C126_valid_iff_partial: exactly so, if no version is negative. C126_negative: a line with version -1 counts as none, so any number of them, anywhere, is accepted."
  },
  {
   "property": "C127",
   "status": "partial",
   "theorems": [
    "Claw.Link.C127_names",
    "Claw.Link.C127_identity",
    "Claw.Link.C127_starts_iff",
    "Claw.Link.C127_found",
    "Claw.Link.C127_order",
    "Claw.Link.C127_vendored_twice",
    "Claw.Link.C127_vendored_and_direct"
   ],
   "note": "C127_names and C127_identity: names the compiler accepts have no dot, so path and name are determined by what is hashed (a hypothesis about package unicode: a dot is no letter and no number). C127_found and C127_order assume that SHAKE128 has no collision among the types of the program. C127_starts_iff: a program starts exactly if no two packages have one Claw path. So the last claim fails: a package vendored by two repositories (C127_vendored_twice), or used directly and through a library that vendors it (C127_vendored_and_direct), makes the program panic before main."
  },
  {
   "property": "C128",
   "status": "partial",
   "theorems": [
    "Claw.Writer.C128_nothing_else",
    "Claw.Writer.C128_reported",
    "Claw.Writer.C128_written_partial",
    "Claw.Writer.C128_lost",
    "Claw.Writer.C128_skipped",
    "Claw.Writer.C128_misplaced",
    "Claw.Writer.C128_beside",
    "Claw.Writer.C128_test_file",
    "Claw.Writer.C128_ends"
   ],
   "note": "C128_reported, C128_nothing_else and C128_ends hold as stated; C128_beside says where packages of the repository go. C128_written_partial: contents after success, for packages that are to be written and are not named like an additional file; that no two packages have one directory is a hypothesis (Sane). `go get` before writing is left out. The rest of the claim fails: packages named clawiter or clawingest lose their main file (C128_lost); in a fork, nothing is written and there is no error (C128_skipped), or with claw.work the code goes to the vendor directory (C128_misplaced); a package named like unit_test has its code in a test file (C128_test_file)."
  },
  {
   "property": "C129",
   "status": "partial",
   "theorems": [
    "Claw.GenImports.C129_main_iff",
    "Claw.GenImports.C129_iter_iff",
    "Claw.GenImports.C129_ingest_iff",
    "Claw.GenImports.C129_compiles_partial",
    "Claw.GenImports.C129_renamed",
    "Claw.GenImports.C129_fixed",
    "Claw.GenImports.C129_local",
    "Claw.GenImports.C129_keyword"
   ],
   "note": "C129_main_iff, C129_iter_iff and C129_ingest_iff say exactly for which names each of the three files is accepted; C129_compiles_partial gives all three for imports that are not renamed and have names that generated code does not use. Otherwise the claim fails: no renamed import compiles (C129_renamed); nor packages named like the nine packages that generated code imports, or `string` (C129_fixed); nor types of packages named like variables of generated code, such as x, list, values or ok (C129_local); nor packages named like keywords, main or init (C129_keyword), all of which the compiler accepts."
  },
  {
   "property": "C130",
   "status": "partial",
   "theorems": [
    "Claw.Import.C130_read_partial",
    "Claw.Import.C130_refused",
    "Claw.Import.C130_open",
    "Claw.Import.C130_found",
    "Claw.Import.C130_comment",
    "Claw.Import.C130_quotes",
    "Claw.Import.C130_unchecked"
   ],
   "note": "C130_read_partial: what is read, for blocks with no line that has nothing but a comment; C130_refused for all blocks; C130_found for all that are accepted. The rest of the claim fails: a line with nothing but a comment makes the block an error (C130_comment), any number of quotes is taken for one (C130_quotes), names from paths are not checked (C130_unchecked). Comments have a blank after their slashes; the text ends in a newline."
  },
  {
   "property": "C131",
   "status": "partial",
   "theorems": [
    "Claw.Fetch.C131_commit_partial",
    "Claw.Fetch.C131_one",
    "Claw.Fetch.C131_latest",
    "Claw.Fetch.C131_pinned",
    "Claw.Fetch.C131_no_panic_partial",
    "Claw.Fetch.C131_short",
    "Claw.Fetch.C131_other",
    "Claw.Fetch.C131_tags"
   ],
   "note": "C131_commit_partial: chains within a repository, at a hash of a commit. C131_latest and C131_pinned hold as stated, with hashes of heads being of twenty bytes. C131_no_panic_partial: paths of at least three elements, versions other than v. The rest of the claim fails: a global.replace to another repository is always an error, since the version of the first is looked for in it (C131_other); no tag can be fetched (C131_tags); paths of fewer than three elements panic (C131_short). go-git is modelled as clones and pulls that get the head of the remote, and checkouts by hash."
  },
  {
   "property": "C132",
   "status": "partial",
   "theorems": [
    "Claw.Vcs.C132_version",
    "Claw.Vcs.C132_min_partial",
    "Claw.Vcs.C132_git3",
    "Claw.Vcs.C132_outside",
    "Claw.Vcs.C132_not_inside",
    "Claw.Vcs.C132_root_partial",
    "Claw.Vcs.C132_root_name",
    "Claw.Vcs.C132_worktree",
    "Claw.Vcs.C132_top",
    "Claw.Vcs.C132_origin_partial",
    "Claw.Vcs.C132_scp",
    "Claw.Vcs.C132_scp_host",
    "Claw.Vcs.C132_port",
    "Claw.Vcs.C132_no_remote"
   ],
   "note": "C132_version and C132_outside hold for numbers below 2^63. C132_min_partial: all but git 3.0 to 3.17, 4.0 to 4.17 and so on, which are refused (C132_git3). C132_root_partial: names without .git; with it, as in me.github.io, the compiler panics (C132_root_name), and in a linked worktree it takes the main one (C132_worktree). C132_origin_partial: scheme://user@host/path with plain characters; user@host:path panics (C132_scp), host:path gives the empty origin, in which every package lies (C132_scp_host); without a remote called origin it panics (C132_no_remote). url.Parse is modelled without %-decoding and bracketed hosts. C132_not_inside and C132_port pin the refused places and the ports."
  },
  {
   "property": "C133",
   "status": "partial",
   "theorems": [
    "Claw.Alive.C133_idle_only",
    "Claw.Alive.C133_why",
    "Claw.Alive.C133_alive",
    "Claw.Alive.C133_busy",
    "Claw.Alive.C133_dead_partial",
    "Claw.Alive.C133_blocked",
    "Claw.Alive.C133_data",
    "Claw.Alive.C133_reader",
    "Claw.Alive.C133_zero"
   ],
   "note": "C133_idle_only, C133_why, C133_alive and C133_busy hold as stated, for time in instants. C133_dead_partial needs writes that return: where they block, as towards a dead peer with full buffers, no connection is ever closed (C133_blocked). The rest fails: an interval of zero panics (C133_zero); data received while a pong is awaited does not count (C133_data); and when one stream is not read from the connection is closed for all streams, however promptly the peer answers (C133_reader)."
  },
  {
   "property": "C134",
   "status": "partial",
   "theorems": [
    "Claw.Init.C134_find_iff",
    "Claw.Init.C134_find_none",
    "Claw.Init.C134_find_bad",
    "Claw.Init.C134_keeps",
    "Claw.Init.C134_in_work",
    "Claw.Init.C134_in_git_partial",
    "Claw.Init.C134_overwrites",
    "Claw.Init.C134_shadowed",
    "Claw.Init.C134_worktree",
    "Claw.Init.C134_panics",
    "Claw.Init.C134_command",
    "Claw.Init.C134_commands",
    "Claw.Init.C134_outside"
   ],
   "note": "C134_find_iff, C134_find_none, C134_find_bad, C134_keeps and C134_in_work hold as stated. C134_in_git_partial: in a directory of the work tree whose top git gives, without claw.work files. The rest fails: a claw.work file that is not in form is overwritten at the top of the work tree (C134_overwrites) and leaves clawc broken after success below it (C134_shadowed); a linked worktree gets a module with .. and its claw.work in another tree (C134_worktree); init panics where git's root or remote do (C134_panics, with C132); every argument but get and init is an unknown command (C134_command). C134_commands and C134_outside pin the commands that are run and what is done outside of a repository."
  },
  {
   "property": "C135",
   "status": "partial",
   "theorems": [
    "Claw.GenMap.C135_iff_partial",
    "Claw.GenMap.C135_bytes",
    "Claw.GenMap.C135_nested",
    "Claw.GenMap.C135_imported",
    "Claw.GenMap.C135_types",
    "Claw.GenMap.C135_more_types",
    "Claw.GenMap.C135_where"
   ],
   "note": "The code violates it. C135_iff_partial says exactly which accepted map types compile: values that are scalars other than bytes, strings, Any, []Any, or structs of the same schema (for imports not named XXXMapping\u2026). map[K]bytes is accepted and never compiles (C135_bytes); nor do maps of maps of any depth (C135_nested), nor structs of other packages, enums and undeclared names (C135_imported). C135_types: the Go types are those expected. C135_more_types and C135_where say which parts of the code for bytes and for maps of maps are wrong."
  },
  {
   "property": "C136",
   "status": "partial",
   "theorems": [
    "Claw.Comments.C136_comment",
    "Claw.Comments.C136_same",
    "Claw.Comments.C136_glued",
    "Claw.Comments.C136_empty",
    "Claw.Comments.C136_collect",
    "Claw.Comments.C136_field",
    "Claw.Comments.C136_enumerator",
    "Claw.Comments.C136_ignored"
   ],
   "note": "C136_ignored (structs and enums; for the lines of an import block see C130_comment), C136_comment and C136_collect, C136_field, C136_enumerator hold without conditions on the text beyond that words have no newline. The code violates the last part: a word written right behind the slashes is lost (C136_glued), and so is an empty comment (C136_empty). C136_same says that comments of lines '// word word' are written as they stand."
  },
  {
   "property": "C137",
   "status": "partial",
   "theorems": [
    "Claw.Refl.C137_set",
    "Claw.Refl.C137_bounds",
    "Claw.Refl.C137_append_lost",
    "Claw.Refl.C137_refused",
    "Claw.Refl.C137_strings_take",
    "Claw.Refl.C137_structs_take",
    "Claw.Refl.C137_enums_refused",
    "Claw.Refl.C137_type",
    "Claw.Refl.C137_any"
   ],
   "note": "C137_set covers values of the kind that Get of such a list makes; float32 items must come back from their conversion to float64. C137_bounds and C137_refused (bools, numbers, bytes) hold as stated. The code violates the rest: what is appended is never seen (C137_append_lost), lists of strings take bools and numbers (C137_strings_take), lists of structs take structs of every type (C137_structs_take), values of enums cannot be set in lists of enums (C137_enums_refused), the type of a number list is that of its items (C137_type), and Any of a list panics (C137_any). Structs that are items are values in the model; sharing of them is not modelled."
  },
  {
   "property": "C138",
   "status": "partial",
   "theorems": [
    "Claw.VendorDir.C138_vendored_partial",
    "Claw.VendorDir.C138_order",
    "Claw.VendorDir.C138_outside",
    "Claw.VendorDir.C138_again",
    "Claw.VendorDir.C138_stale_mod",
    "Claw.VendorDir.C138_stale_package",
    "Claw.VendorDir.C138_claw_directory",
    "Claw.VendorDir.C138_version",
    "Claw.VendorDir.C138_file_name",
    "Claw.VendorDir.C138_escapes"
   ],
   "note": "C138_vendored_partial, C138_order and C138_outside ask that nothing is in the way (no file where a directory has to be, no second schema in the directory of a package) and that no element of a path is `.`, `..`, empty, `claw.mod` or ends in `.claw`. C138_again says that a run keeps the first condition, so that it holds for any number of runs from an empty vendor directory. The code violates the last part: the claw.mod of an older version stays if the new one has none (C138_stale_mod), and packages that are no longer used stay (C138_stale_package). A package in a directory x.claw hides the schema of the package above it (C138_claw_directory). The version of a vendored package is never known (C138_version). A path with `..` leads out of the vendor directory and is written to (C138_escapes); whether such a path can be fetched is up to the host. The file is called after the last element of the path (C138_file_name)."
  },
  {
   "property": "C139",
   "status": "partial",
   "theorems": [
    "Claw.Descr.C139_structs",
    "Claw.Descr.C139_own",
    "Claw.Descr.C139_fields_partial",
    "Claw.Descr.C139_enums",
    "Claw.Descr.C139_imported",
    "Claw.Descr.C139_none",
    "Claw.Descr.C139_name_panics",
    "Claw.Descr.C139_not_told"
   ],
   "note": "C139_structs, C139_own and C139_enums hold for every schema that is compiled and has structs, or enums. C139_fields_partial is for types that are well formed and of this package; it asks that the names of the fields differ (see C70) and that none begins with what the byte test takes for lower case. C139_imported is for types of other packages. The code violates the rest: a package without enums or without structs has nil in place of an empty list (C139_none); asking for a field panics for empty and lower-case names, where nil is documented, and for every declared name that begins with a character from U+07C0 on (C139_name_panics); descriptions do not tell which struct a field or a map holds, what a map of maps holds, or which package a list is of (C139_not_told)."
  },
  {
   "property": "C140",
   "status": "partial",
   "theorems": [
    "Claw.Compile.C140_places",
    "Claw.Compile.C140_outside_git",
    "Claw.Compile.C140_written_partial",
    "Claw.Compile.C140_replaced",
    "Claw.Compile.C140_beyond_work",
    "Claw.Compile.C140_go_get",
    "Claw.Compile.C140_no_module",
    "Claw.Compile.C140_guess_right",
    "Claw.Compile.C140_guess_short",
    "Claw.Compile.C140_guess_dotted",
    "Claw.Compile.C140_guessed",
    "Claw.Compile.Case.C140_replaced_fails",
    "Claw.Compile.Case.C140_beyond_work_fails",
    "Claw.Compile.Case.C140_go_get_fails",
    "Claw.Compile.Case.C140_no_module_fails",
    "Claw.Compile.Case.C140_short_fails",
    "Claw.Compile.Case.C140_dotted_fails",
    "Claw.Compile.Case.C140_outside_git_fails",
    "Claw.Compile.C140_succeeds"
   ],
   "note": "C140_places holds for every run. C140_written_partial is the first sentence for a repository that git knows, without replacements, and with plain paths. C140_guess_right tells when the path of a vendored package is found again. The code violates the rest: a package replaced by a local directory, and one of the git repository outside of what claw.work names, are collected but then looked for in the vendor directory (C140_replaced, C140_beyond_work); a package of the repository that imports one of another repository, or has no claw.mod of its own, is compiled only if `go get` of the imported package, or of a path guessed from the directory, succeeds (C140_go_get, C140_no_module); vendored packages with paths of two elements, and all of them if a directory above the checkout has a dot in its name, get the code written to a wrong place, which mostly is not there, so that clawc fails (C140_guess_short, C140_guess_dotted, C140_guessed); outside of git all goes to the vendor directory (C140_outside_git). C140_succeeds: in a repository without any of these, in which every package can be had and none imports itself, clawc succeeds."
  },
  {
   "property": "C141",
   "status": "partial",
   "theorems": [
    "Claw.Compile.C141_vendored",
    "Claw.Compile.C141_replaced",
    "Claw.Compile.C141_replaced_module",
    "Claw.Compile.C141_latest",
    "Claw.Compile.C141_version",
    "Claw.Compile.C141_copies",
    "Claw.Compile.C141_written_partial",
    "Claw.Compile.C141_compiled_partial",
    "Claw.Compile.C141_no_git_panics",
    "Claw.Compile.C141_forgotten",
    "Claw.Compile.C141_refused_ignored",
    "Claw.Compile.Case.C141_copies_fails",
    "Claw.Compile.Case.C141_forgotten_fails",
    "Claw.Compile.Case.C141_refused_ignored_fails",
    "Claw.Compile.C141_succeeds"
   ],
   "note": "C141_vendored, C141_version and C141_latest are the sentences on what is vendored, in a git repository and for plain paths; C141_written_partial and C141_compiled_partial those on the code, without replacements; C141_replaced is the sentence on replacements: what is vendored is the schema, and the claw.mod, of the directory; C141_succeeds tells when the command succeeds. The code violates the rest: the version is not kept anywhere and the next run of clawc vendors the latest one (C141_forgotten); a claw.mod that is refused, as one that requires a version is (C86), is silently taken for none, so that its replacements are not made (C141_refused_ignored); packages of the repository itself are copied to the vendor directory, where nothing reads them (C141_copies); of a package that is replaced by a directory with a claw.mod nothing can be got at all: without `acls = public` there nobody may import it, and with it the claw.mod that is vendored is refused (C141_replaced_module); outside of git the command panics (C141_no_git_panics). The path of the package is guessed as in C140."
  },
  {
   "property": "C142",
   "status": "partial",
   "theorems": [
    "Claw.Release.C142_succeeds",
    "Claw.Release.C142_like_new_partial",
    "Claw.C142_message_lost",
    "Claw.C142_message_replaced",
    "Claw.C142_nested_release",
    "Claw.C142_writes_into_parent",
    "Claw.C142_made_in_parent",
    "Claw.C142_cut_message"
   ],
   "note": "C142_like_new_partial and C142_succeeds are the property for structs made with New, whatever the pools hand out (the pools are the trusted base library; it is taken to call Reset on Put, as the comment in segment.go says). Missing there, and violated: a struct decoded with Unmarshal lives in the slice of the caller, so that Release destroys the message in it (C142_message_lost) and the next struct is built in it (C142_message_replaced); a nested struct obtained from a decoded one lives in its parent, so that its Release cuts the parent's message off at that field (C142_nested_release), and the next struct of its type writes into the parent (C142_writes_into_parent), already when it is made (C142_made_in_parent). When UnmarshalReader fails in the middle of a message, the struct has the fields of the released one (C142_cut_message)."
  },
  {
   "property": "C143",
   "status": "partial",
   "theorems": [
    "Claw.Deadline.C143_handler_deadline_partial",
    "Claw.Deadline.C143_short_deadline",
    "Claw.Deadline.C143_transport_added",
    "Claw.Deadline.C143_wire",
    "Claw.Deadline.C143_wire_overflow",
    "Claw.Deadline.C143_open",
    "Claw.Deadline.C143_shared_timeout",
    "Claw.Deadline.C143_call_returns_partial",
    "Claw.Deadline.C143_outcome",
    "Claw.Deadline.C143_stalled_write",
    "Claw.Deadline.C143_timeout_ignored"
   ],
   "note": "C143_handler_deadline_partial: with at least a millisecond left, the handler has a deadline no later than that of the caller plus the time the Open took, and less than a millisecond earlier than that. Violated otherwise: with less than a millisecond left, or none, the handler runs without a deadline (C143_short_deadline); it may go on after the caller's deadline for as long as the Open took (C143_transport_added); a large number in an Open of another client gives a deadline in the past (C143_wire, C143_wire_overflow). C143_call_returns_partial: a call under a deadline of its own returns when that has passed, given that the writes return; a transport that stalls holds it for ever (C143_stalled_write; C143_outcome says that each call has an outcome in the model). A configured timeout is no limit of a call (C143_timeout_ignored), and for the handlers it runs from the opening of the client for all its calls together, so that the client is of no use after it (C143_shared_timeout, C143_open). Contexts cancelled by hand are in C59."
  },
  {
   "property": "C144",
   "status": "partial",
   "theorems": [
    "Claw.Conc.C144_indexed",
    "Claw.Conc.C144_not_indexed_partial",
    "Claw.Conc.C144_field_missing",
    "Claw.Conc.C144_twice",
    "Claw.Conc.C144_lists_fatal",
    "Claw.Conc.C144_lists_differ",
    "Claw.Conc.C144_lists_kept_partial"
   ],
   "note": "C144_indexed: the property for fields that are not lists, when some getter was called before the goroutines start. C144_lists_kept_partial: for lists that were read before. C144_not_indexed_partial: on a struct just decoded, for messages without repeated fields and memory accesses that happen one after the other. Violated otherwise: the first getter builds the index without a lock, so that a goroutine may see that the index is there and not its entries and find a field absent (C144_field_missing, for every message and field); a repeated field may change between two reads (C144_twice); two first reads of lists may end the program with a concurrent map access (C144_lists_fatal) or give two objects for one list (C144_lists_differ). What a racing read may give is modelled after the memory model of Go (trusted): any value of a word that is not older than one the goroutine has read or written itself."
  },
  {
   "property": "C145",
   "status": "partial",
   "theorems": [
    "Claw.Limits.C145_refused",
    "Claw.Limits.C145_kept",
    "Claw.Limits.C145_answered_partial",
    "Claw.Limits.C145_request_dropped",
    "Claw.Limits.C145_request_no_error",
    "Claw.Limits.C145_reply_dropped",
    "Claw.Limits.C145_reply_no_error",
    "Claw.Limits.C145_reply_ends_session",
    "Claw.Limits.C145_stream",
    "Claw.Limits.C145_stream_whole",
    "Claw.Limits.C145_told_ignored"
   ],
   "note": "C145_refused: the senders keep their limits, for all calls. C145_kept: nothing over a limit is delivered, and what is delivered is what was sent. C145_answered_partial: when each receiver takes all that the other end may send (as by default), all requests that were sent are answered in order, or the session was ended by what the handler gave last. Violated otherwise: a request over the limit of the server, or a reply over that of the client, is dropped without an error on either side, and the call waits in an open session (C145_request_dropped, C145_request_no_error, C145_reply_dropped, C145_reply_no_error); a reply over the limit of the server ends the session and so all other calls on it (C145_reply_ends_session); on a stream messages are missing in the middle, exactly those over the limit of the receiver (C145_stream, C145_stream_whole); the announced sizes change nothing, and the server announces zero (C145_told_ignored). The ends are assumed to agree on compression (C44)."
  },
  {
   "property": "C146",
   "status": "partial",
   "theorems": [
    "Claw.C146_bytes_partial",
    "Claw.C146_nested_partial",
    "Claw.C146_later_bytes",
    "Claw.C146_later_nested",
    "Claw.C146_moved_bytes",
    "Claw.C146_edit_lost",
    "Claw.C146_bytes_change",
    "Claw.C146_nested_change",
    "Claw.C146_clear_changes"
   ],
   "note": "C146_bytes_partial and C146_nested_partial: nothing changes as long as the fields before the one that was read keep the room they take; C146_later_bytes and C146_later_nested: so after any calls on fields with larger numbers. C146_moved_bytes: in a struct decoded from a message with no room behind it a slice is safe for ever once a call makes the struct longer. Violated otherwise: C146_bytes_change (a byte slice turns into a header of the wire format when an earlier field is set), C146_nested_change (a number in a nested struct changes), C146_clear_changes (also when a decoded struct gets shorter). C146_edit_lost: once a decoded struct has become longer, whatever is set in a nested struct obtained before never reaches the message."
  },
  {
   "property": "C147",
   "status": "partial",
   "theorems": [
    "Claw.C147_exact",
    "Claw.C147_put_panics",
    "Claw.C147_reach_partial",
    "Claw.C147_lost",
    "Claw.C147_decoded_edit_partial",
    "Claw.C147_decoded_grow_last",
    "Claw.C147_decoded_grow_first",
    "Claw.C147_decoded_same_size",
    "Claw.C147_decoded_clear",
    "Claw.C147_decoded_two_lists",
    "Claw.C147_item_header"
   ],
   "note": "C147_exact: what every program does when the lists are empty at the start, with Marshal and ClearField anywhere. C147_reach_partial: up to the first Marshal the message has the items of every list as they are when it is written. Missing and violated: C147_lost (after Marshal, whatever is done to the lists touched before and to any struct, the next message is byte for byte the same); decoded lists, whose items are views of the message: C147_decoded_grow_last (a field set in the last item is not in the message), C147_decoded_grow_first (set in an earlier item it removes the next one), C147_decoded_clear (clearing another field and appending loses all items), C147_decoded_same_size (a field of the same size is overwritten in place). C147_put_panics: replacing an item that is not there panics. C147_decoded_edit_partial: structs appended to a list of the message that was not touched yet, put in the place of one of its items or set instead of all of them are in the next message, with the items that are left, when no other list is pending; C147_decoded_two_lists: not so when another list is. C147_item_header: encoding the parent changes the bytes an item encodes to by itself."
  },
  {
   "property": "C148",
   "status": "partial",
   "theorems": [
    "Claw.C148_exact",
    "Claw.C148_reach_partial",
    "Claw.C148_lost",
    "Claw.C148_read_disconnects",
    "Claw.C148_decoded_lost"
   ],
   "note": "C148_exact: what every program does, from a new or a decoded struct, with Marshal anywhere; what the accessors answer and what the next message has. C148_reach_partial: a map that was empty and not touched before the last Marshal reaches the message with exactly the mathematical map of its edits, in key order, including later changes of stored structs. Missing and violated: C148_lost (after Marshal whatever is done to maps touched before or present in the record leaves the next message byte for byte the same), C148_read_disconnects (merely reading an empty map before Marshal is enough; the accessor shows the lost entry), C148_decoded_lost (edits of decoded maps encode the decoded message again). Assumes messages below 4 GiB and maps whose padding is not read as entries (C14); not covered: changing a struct obtained from a decoded map, one struct stored under two keys."
  },
  {
   "property": "C149",
   "status": "partial",
   "theorems": [
    "Claw.Opening.C149_reach_partial",
    "Claw.Opening.C149_reason_lost",
    "Claw.Opening.C149_stream_metadata_lost",
    "Claw.Opening.C149_versions_ignored",
    "Claw.Opening.C149_by_pointer",
    "Claw.Opening.C149_wrong_handler",
    "Claw.Opening.C149_wrap"
   ],
   "note": "C149_reach_partial: for names without a slash, handlers registered by value and fewer than 2^32-1 calls on the connection, a call gets a session exactly when a handler of its kind is registered first for its names and the server is not draining; that handler's function runs in a session of its own, with the metadata if the call is synchronous; otherwise an error and nothing runs. Violated: C149_reason_lost (Unimplemented, InvalidArgument and Unavailable all reach the caller as the same Unavailable error), C149_stream_metadata_lost (handlers of streams cannot see the metadata), C149_versions_ignored, C149_by_pointer (a pointer to a handler can be registered, gets sessions and never runs), C149_wrong_handler (names joined with slashes), C149_wrap (after 2^32-1 sessions a caller is told of a rejection while the handler runs). No interceptor; an Open and its answer are one step (C41)."
  },
  {
   "property": "C150",
   "status": "partial",
   "theorems": [
    "Claw.Attempts.C150_one_invocation",
    "Claw.Attempts.C150_retry_panics",
    "Claw.Attempts.C150_reply_not_given",
    "Claw.Attempts.C150_later_calls_panic",
    "Claw.Attempts.C150_success_partial",
    "Claw.Attempts.C150_first_final_partial",
    "Claw.Attempts.C150_hedge_no_gain",
    "Claw.Attempts.C150_hedge_delays",
    "Claw.Attempts.C150_hedge_invocations",
    "Claw.Attempts.C150_hedge_ends_session",
    "Claw.Attempts.C150_hedge_panics",
    "Claw.Attempts.C150_hedge_partial"
   ],
   "note": "C150_success_partial: while the handler succeeds, every call of any sequence gets its reply, for any policy and schedule, and the session stays. C150_first_final_partial: if the first outcome is a success or not retryable the caller gets what the specification (Wanted) says, provided the select takes the close notice. C150_hedge_partial: hedges all answered before the call returns do no harm. Violated: C150_one_invocation (a call never invokes the handler twice, whatever the policy), C150_retry_panics and C150_reply_not_given (a retry after an error panics where the specification wants a reply), C150_later_calls_panic (after an error every later call on the client panics), C150_hedge_no_gain and C150_hedge_delays (one request at a time: a hedge is never first, and delays what follows), C150_hedge_invocations, C150_hedge_ends_session (an unanswered hedge ends the session), C150_hedge_panics (a hedge cannot make up for a failure). Calls one after another, connection stays up; the caller's context ends only between attempts."
  },
  {
   "property": "C151",
   "status": "partial",
   "theorems": [
    "Claw.Prepare.C151_init",
    "Claw.Prepare.C151_init_again",
    "Claw.Prepare.C151_validate_partial",
    "Claw.Prepare.C151_validate_endless",
    "Claw.Prepare.C151_self_never_accepted",
    "Claw.Prepare.C151_any_value_accepted"
   ],
   "note": "C151_init and C151_init_again: the part about Init in full, for all graphs, with a bound on the depth of the calls. C151_validate_partial: if no description leads back to itself, no field is marked self-referential and values of maps have allowed types, MustValidate ends and accepts exactly if all is described well. Violated: C151_validate_endless (it does not end for structs that hold each other), C151_self_never_accepted (a struct that holds itself is never accepted, also not in the documented form with SelfReferential set and no Mapping), C151_any_value_accepted (maps with values of any type are accepted). Texts of errors are left out; of the hooks only that they run is kept. Generated code that compiles has no cycles (C123), descriptions made by hand may."
  },
  {
   "property": "C152",
   "status": "partial",
   "theorems": [
    "Claw.PatchRefuse.C152_set",
    "Claw.PatchRefuse.C152_refused_unchanged",
    "Claw.PatchRefuse.C152_no_items",
    "Claw.PatchRefuse.C152_set_structs",
    "Claw.PatchRefuse.C152_replace_no_list",
    "Claw.PatchRefuse.C152_short_item",
    "Claw.PatchRefuse.C152_empty_replace_clears",
    "Claw.PatchRefuse.C152_bools",
    "Claw.PatchRefuse.C152_trailing_ignored",
    "Claw.PatchRefuse.C152_unknown_skipped",
    "Claw.PatchRefuse.C152_ragged_replace"
   ],
   "note": "C152_refused_unchanged: in full for the second sentence, where the struct is unchanged up to what a getter of the field, or the writing of pending edits of the field, does. C152_set: a Set of a single value is refused exactly if the data is shorter than a value of the type, or the type has no Set. C152_set_structs, C152_no_items, C152_replace_no_list: Set of lists of structs, and item operations and replacements with data on fields that are no lists, are refused. C152_short_item: items of number lists that are too short are not taken. C152_bools: a list of bools takes one item from every byte, true unless 0. C152_unknown_skipped: operations of kinds that are not known, and operations without a patch inside on fields that are not known, are skipped. Violated: C152_trailing_ignored (bytes behind a number are ignored), C152_ragged_replace (replacing a list of numbers is never refused, whatever the bytes), C152_empty_replace_clears (a replacement without data clears any field). Operations with patches inside may be refused with a part applied (C23). A refused replacement of a list of structs leaves a list object without edits behind, which the model leaves out."
  },
  {
   "property": "C153",
   "status": "partial",
   "theorems": [
    "Claw.MetadataArgs.C153_panics",
    "Claw.MetadataArgs.C153_pairs",
    "Claw.MetadataArgs.C153_set_shares"
   ],
   "note": "C153_panics and C153_pairs: in full for the first sentence. C153_pairs also says what is there after the caller writes into a buffer: strings are kept, slices show what was written. Violated: C153_set_shares, and C153_pairs for slices (the metadata shares its bytes with the caller)."
  },
  {
   "property": "C154",
   "status": "partial",
   "theorems": [
    "Claw.Iter.C154_range",
    "Claw.Iter.C154_all",
    "Claw.Iter.C154_again",
    "Claw.Iter.C154_again_partial",
    "Claw.Iter.C154_growing_never_panics",
    "Claw.Iter.C154_used_iterator_is_short",
    "Claw.Iter.C154_shrinking_panics",
    "Claw.Iter.C154_append_forever"
   ],
   "note": "C154_range, C154_all: in full for one loop whose body leaves the list as it is. C154_again_partial: a second use, if the list is not longer than at the first. C154_again: what a second use visits, exactly. C154_growing_never_panics: no panic of Range for bodies that do not make the list shorter. Violated: C154_used_iterator_is_short (a used iterator does not see items appended since), C154_shrinking_panics (Range panics if the body empties the list), C154_append_forever (All of numbers does not end if the body appends)."
  },
  {
   "property": "C155",
   "status": "partial",
   "theorems": [
    "Claw.BytesList.C155_values_partial",
    "Claw.BytesList.C155_sync_partial",
    "Claw.BytesList.C155_append_shares",
    "Claw.BytesList.C155_get_write_lost"
   ],
   "note": "C155_values_partial, C155_sync_partial: for all histories of Set, SetAll, Slice and SyncToSegment. Violated for the others: C155_append_shares (Append takes over the slice), C155_get_write_lost (what is written into a slice of Get shows in the list and does not reach the message). Which lists Marshal writes is C18's."
  }
 ]
}