{
 "claims": [
  {
   "property": "C01",
   "status": "proved",
   "theorems": [
    "OptiPrism.Storage.C01_log_round_trip",
    "OptiPrism.Storage.C01_replay_round_trip"
   ],
   "note": "any 32-bit checksum, any rows whose lengths fit 64 bits; bincode format modelled from its documentation"
  },
  {
   "property": "C02",
   "status": "proved",
   "theorems": [
    "OptiPrism.Storage.C02_only_checked_frames",
    "OptiPrism.Storage.C02_wrong_checksum_fails"
   ],
   "note": "arbitrary bytes"
  },
  {
   "property": "C03",
   "status": "partial",
   "theorems": [
    "OptiPrism.Storage.C03_partial",
    "OptiPrism.Storage.C03_violated",
    "OptiPrism.Storage.C03_cut_after_checksum_fails"
   ],
   "note": "full statement is false for the code (open fails on a torn tail); proved: a successful open returns all completed rows and at most one more"
  },
  {
   "property": "C04",
   "status": "partial",
   "theorems": [
    "OptiPrism.Storage.C04_partial",
    "OptiPrism.Storage.C04_read_after_write",
    "OptiPrism.Storage.C04_violated",
    "OptiPrism.Storage.C04_version_truncated"
   ],
   "note": "exact characterisation: round trip iff the columns have the built-in decimal/timestamp types and version < 2^32; every key value, count and name unrestricted; the file is overwritten in place over arbitrary old contents"
  },
  {
   "property": "C05",
   "status": "proved",
   "theorems": [
    "OptiPrism.Storage.C05_memtable_get_last_write"
   ],
   "note": ""
  },
  {
   "property": "C06",
   "status": "partial",
   "theorems": [
    "OptiPrism.Storage.C06_partial",
    "OptiPrism.Storage.C06_violated",
    "OptiPrism.Storage.C06_rejection_independent_of_rows"
   ],
   "note": "key values are taken by position; proved when the caller supplies key columns first"
  },
  {
   "property": "C07",
   "status": "proved",
   "theorems": [
    "OptiPrism.Storage.C07_insert_validates",
    "OptiPrism.Storage.C07_well_typed_accepted"
   ],
   "note": ""
  },
  {
   "property": "C08",
   "status": "proved",
   "theorems": [
    "OptiPrism.Storage.C08_add_column",
    "OptiPrism.Storage.C08_flush_keeps_rows"
   ],
   "note": ""
  },
  {
   "property": "C09",
   "status": "partial",
   "theorems": [
    "OptiPrism.Storage.C09_partial",
    "OptiPrism.Storage.C09_violated"
   ],
   "note": "false when a column was added while rows were unflushed; the partial theorem is an exact characterisation"
  },
  {
   "property": "C10",
   "status": "proved",
   "theorems": [
    "OptiPrism.Storage.C10_scan_returns_inserted"
   ],
   "note": "key order abstract (any total order); tie-breaks, chunking and sort arbitrary"
  },
  {
   "property": "C100",
   "status": "proved",
   "theorems": [
    "OptiPrism.Platform.C100_revoked",
    "OptiPrism.Platform.C100_delete"
   ],
   "note": "Identifiers of accounts are never reused, so the tokens stay refused in every later state."
  },
  {
   "property": "C101",
   "status": "partial",
   "theorems": [
    "OptiPrism.Platform.C101_login_partial",
    "OptiPrism.Platform.C101_switch_partial",
    "OptiPrism.Platform.C101_refresh_violated",
    "OptiPrism.Platform.C101_left_violated",
    "OptiPrism.Platform.C101_member_switch_violated"
   ],
   "note": "Holds for logging in and, with roles, for switching. Refreshing copies the organization of whatever access token is presented, also of another account or one the account has left."
  },
  {
   "property": "C102",
   "status": "partial",
   "theorems": [
    "OptiPrism.Platform.C102_refresh_partial",
    "OptiPrism.Platform.C102_expired_violated"
   ],
   "note": "The handler asks for a valid access token as well, so an expired one cannot be renewed at all."
  },
  {
   "property": "C103",
   "status": "partial",
   "theorems": [
    "OptiPrism.Platform.C103_set_partial",
    "OptiPrism.Platform.C103_refused",
    "OptiPrism.Platform.C103_ignored_violated",
    "OptiPrism.Platform.C103_gcp_violated"
   ],
   "note": "Fourteen fields are honoured; the GCP key, the schedule and the administrator password are ignored, so GCP can never be chosen."
  },
  {
   "property": "C104",
   "status": "proved",
   "theorems": [
    "OptiPrism.Platform.C104_admin",
    "OptiPrism.Platform.C104_none"
   ],
   "note": "Roles of existing accounts never change; only administrators make administrators."
  },
  {
   "property": "C105",
   "status": "partial",
   "theorems": [
    "OptiPrism.Platform.C105_session_violated",
    "OptiPrism.Platform.C105_keys_partial"
   ],
   "note": "Only new signing keys end sessions; after a change of password older tokens stay valid and can be refreshed."
  },
  {
   "property": "C106",
   "status": "proved",
   "theorems": [
    "OptiPrism.Platform.C106_secrets",
    "OptiPrism.Platform.C106_set"
   ],
   "note": "The answers of the settings endpoint are the same for settings which differ in secrets only."
  },
  {
   "property": "C107",
   "status": "partial",
   "theorems": [
    "OptiPrism.Platform.C107_start",
    "OptiPrism.Platform.C107_restart",
    "OptiPrism.Platform.C107_empty_violated"
   ],
   "note": "Holds for starts and restarts; the endpoint accepts an empty key."
  },
  {
   "property": "C108",
   "status": "partial",
   "theorems": [
    "OptiPrism.Meta.C108_team",
    "OptiPrism.Meta.C108_organization",
    "OptiPrism.Meta.C108_event_partial",
    "OptiPrism.Meta.C108_account_partial",
    "OptiPrism.Meta.C108_custom_event",
    "OptiPrism.Meta.C108_dashboard",
    "OptiPrism.Meta.C108_report_partial",
    "OptiPrism.Meta.C108_property",
    "OptiPrism.Meta.C108_project",
    "OptiPrism.Meta.C108_role_violated",
    "OptiPrism.Meta.C108_report_type_violated",
    "OptiPrism.Meta.C108_event_lists_violated"
   ],
   "note": "Holds field by field for nine kinds of records, with the rest of the record and all other records unchanged. The role of an account, the type of a report and the property lists of an event are acknowledged and not stored."
  },
  {
   "property": "C109",
   "status": "partial",
   "theorems": [
    "OptiPrism.Ingest.C109_partial",
    "OptiPrism.Ingest.C109_declared",
    "OptiPrism.Ingest.C109_campaign",
    "OptiPrism.Ingest.C109_violated"
   ],
   "note": "Holds for properties that are not system properties, after histories in which no update changes the type, data type or system flag of a property and only ingestion writes keys of user and group columns; for campaigns, if the UTM columns are distinct from each other and from the key columns. A client property with the name of a system column (event) is dropped silently."
  },
  {
   "property": "C11",
   "status": "proved",
   "theorems": [
    "OptiPrism.Storage.C11_merge_one_key",
    "OptiPrism.Storage.C11_merge_two_keys"
   ],
   "note": ""
  },
  {
   "property": "C110",
   "status": "proved",
   "theorems": [
    "OptiPrism.Ingest.C110_events",
    "OptiPrism.Ingest.C110_versions"
   ],
   "note": "For all sequences of ingestion requests (accepted, refused or panicking) and other metadata requests, one at a time."
  },
  {
   "property": "C111",
   "status": "partial",
   "theorems": [
    "OptiPrism.Ingest.C111_partial",
    "OptiPrism.Ingest.C111_violated"
   ],
   "note": "Holds for properties that are not system properties, after histories in which no update changes the type, data type or system flag of a property. The string of a property of another kind of groups than the first is not in the dictionary of its table, so it cannot be read back."
  },
  {
   "property": "C112",
   "status": "partial",
   "theorems": [
    "OptiPrism.Ingest.C112_partial",
    "OptiPrism.Ingest.C112_violated"
   ],
   "note": "Holds for the groups of a request, and for the user of a request with groups and the user id alone. The properties of the user of any other event are not stored with it."
  },
  {
   "property": "C113",
   "status": "partial",
   "theorems": [
    "OptiPrism.Storage.C113_partial",
    "OptiPrism.Storage.C113_inside",
    "OptiPrism.Storage.C113_violated"
   ],
   "note": "Ranges may touch at their ends and a part of a single key may lie inside another range (C113_violated); otherwise proved for every history, for mergers whose outputs follow each other and whose recorded ends are keys."
  },
  {
   "property": "C114",
   "status": "partial",
   "theorems": [
    "OptiPrism.Platform.C114_self",
    "OptiPrism.Platform.C114_login",
    "OptiPrism.Platform.C114_admin_partial",
    "OptiPrism.Platform.C114_admin_violated"
   ],
   "note": "Proved for changes of the own account. An administrator's request for a role or for a new password to be set is acknowledged and ignored (C114_admin_violated); the other fields are proved."
  },
  {
   "property": "C115",
   "status": "partial",
   "theorems": [
    "OptiPrism.Ingest.C115_partial",
    "OptiPrism.Ingest.C115_client",
    "OptiPrism.Ingest.C115_violated"
   ],
   "note": "Proved for every parser and address database. When one of the properties does not exist (any more), every request for which it is detected is refused (C115_violated)."
  },
  {
   "property": "C116",
   "status": "proved",
   "theorems": [
    "OptiPrism.Query.C116"
   ],
   "note": "From the answers of the server to the value of the chart. Assumes that DataFusion evaluates filter and date_trunc as modelled; requests have times within the range of chrono."
  },
  {
   "property": "C117",
   "status": "partial",
   "theorems": [
    "OptiPrism.Query.C117_partial",
    "OptiPrism.Query.C117_funnel_violated",
    "OptiPrism.Query.C117_segments_violated"
   ],
   "note": "Holds for segmentation, searches, look-ups and values. Funnels have no filter for the project, and the segments of queries read the table unfiltered."
  },
  {
   "property": "C118",
   "status": "partial",
   "theorems": [
    "OptiPrism.Query.C118_segmentation",
    "OptiPrism.Query.C118_step",
    "OptiPrism.Query.C118_funnel_partial",
    "OptiPrism.Query.C118_events_partial",
    "OptiPrism.Query.C118_events_violated",
    "OptiPrism.Query.C118_filters_violated",
    "OptiPrism.Query.C118_groups_partial",
    "OptiPrism.Query.C118_groups_violated",
    "OptiPrism.Query.C118_by_id",
    "OptiPrism.Query.C118_values"
   ],
   "note": "Complete for segmentation, funnel steps, look-ups and values. Searches for events leave out events without filters and ignore the filters of the request; searches for groups drop the range when there are filters."
  },
  {
   "property": "C119",
   "status": "partial",
   "theorems": [
    "OptiPrism.Query.C119_zero_partial",
    "OptiPrism.Query.C119_partial",
    "OptiPrism.Query.C119_panic",
    "OptiPrism.Query.C119_limit",
    "OptiPrism.Query.C119_violated"
   ],
   "note": "Missing values count as zero (C119_violated), so the ranking by the average is proved for tables with a value in every interval, and by the average counting missing ones as zero in general."
  },
  {
   "property": "C12",
   "status": "partial",
   "theorems": [
    "OptiPrism.Storage.C12_partial",
    "OptiPrism.Storage.C12_violated",
    "OptiPrism.Storage.C12_old_version_may_win"
   ],
   "note": "false: the replacing merge compares only the first key column; proved when blocks have disjoint first-key ranges"
  },
  {
   "property": "C120",
   "status": "partial",
   "theorems": [
    "OptiPrism.Query.C120_partial",
    "OptiPrism.Query.C120_sorted_partial",
    "OptiPrism.Query.C120_violated",
    "OptiPrism.Query.C120_workers_violated"
   ],
   "note": "Proved for requests with one id each and rows of a user together with one worker. Requests with both ids make two users of one (C120_violated)."
  },
  {
   "property": "C121",
   "status": "partial",
   "theorems": [
    "OptiPrism.Ingest.C121_partial",
    "OptiPrism.Ingest.C121_name_violated"
   ],
   "note": "All of it, assuming that no name of a project looks like a token (names and tokens share an index, see C35) and that system names are their own column names."
  },
  {
   "property": "C122",
   "status": "partial",
   "theorems": [
    "OptiPrism.Ingest.C122_partial",
    "OptiPrism.Ingest.C122_identify_partial",
    "OptiPrism.Ingest.C122_dates",
    "OptiPrism.Ingest.C122_violated",
    "OptiPrism.Ingest.C122_poisoned"
   ],
   "note": "Proved for requests without dates, in states reached without requests with both ids, identify requests with dates, deleted properties or deleted or renamed events. A track request with a date is never accepted (C122_dates), and the date of a refused identify request is stored and makes later requests fail (C122_poisoned)."
  },
  {
   "property": "C123",
   "status": "partial",
   "theorems": [
    "OptiPrism.Platform.C123_partial",
    "OptiPrism.Platform.C123_query_partial",
    "OptiPrism.Platform.C123_accepted_partial",
    "OptiPrism.Platform.C123_update_partial",
    "OptiPrism.Platform.C123_update_accepted_partial",
    "OptiPrism.Platform.C123_excluded_steps_violated",
    "OptiPrism.Platform.C123_drift_violated",
    "OptiPrism.Platform.C123_groups_violated",
    "OptiPrism.Platform.C123_empty_violated",
    "OptiPrism.Platform.C123_null_violated"
   ],
   "note": "Proved with the exact condition (Tidy) under which the query comes back as sent, through any later requests that leave the report alone. The full claim is violated: excluded steps move by one each time a report is read and saved, later groups of filters are lost, empty lists become absent, null panics."
  },
  {
   "property": "C124",
   "status": "partial",
   "theorems": [
    "OptiPrism.Meta.C124_partial",
    "OptiPrism.Meta.C124_requests_partial",
    "OptiPrism.Meta.C124_answers_partial",
    "OptiPrism.Meta.C124_phantom_violated",
    "OptiPrism.Meta.C124_time_violated"
   ],
   "note": "Proved for all histories and evictions, up to fractions of seconds and absent against empty tags, which the store does not keep. Missing, and violated: creations refused by the table after the record has entered the caches."
  },
  {
   "property": "C125",
   "status": "partial",
   "theorems": [
    "OptiPrism.Platform.C125_partial",
    "OptiPrism.Platform.C125_violated",
    "OptiPrism.Platform.C125_values_violated"
   ],
   "note": "Proved for every reachable state and every request none of whose parts is unimplemented or out of range (Supported). Violated by group indexes of properties from 5 on, empty lists of filter groups, unknown aggregates, custom breakdowns of an event, weekly and monthly active groups and formulas, too many years, and NULL or absent values of optional properties: each passes validation and panics. Custom events are not covered."
  },
  {
   "property": "C126",
   "status": "partial",
   "theorems": [
    "OptiPrism.Platform.C126_partial",
    "OptiPrism.Platform.C126_violated"
   ],
   "note": "Proved for every planned chart: columns read, decoded, grouped and aggregated by, in order, and used by the filters of regular events. Missing, and violated: the filters of custom events."
  },
  {
   "property": "C127",
   "status": "partial",
   "theorems": [
    "OptiPrism.Platform.C127_partial",
    "OptiPrism.Platform.chart_asked",
    "OptiPrism.Platform.coded_of",
    "OptiPrism.Platform.C127_or_violated",
    "OptiPrism.Platform.C127_groups_violated",
    "OptiPrism.Platform.C127_pattern_violated",
    "OptiPrism.Platform.C127_fraction_violated"
   ],
   "note": "Proved for every state of the system (C127_partial) and every store with intact dictionaries (chart_asked, coded_of), for regular events with at most one group of filters. Missing, and violated: filters joined by or, further groups, columns both compared and matched against patterns, fractions for times. Custom events are covered up to their own filters by C118."
  },
  {
   "property": "C128",
   "status": "partial",
   "theorems": [
    "OptiPrism.Platform.C128_partial",
    "OptiPrism.Platform.C128_violated"
   ],
   "note": "Proved without patterns, and with patterns when all rows can be read with the dictionary of the project. Violated by rows of other projects."
  },
  {
   "property": "C129",
   "status": "partial",
   "theorems": [
    "OptiPrism.Platform.C129_partial",
    "OptiPrism.Platform.C129_violated",
    "OptiPrism.Platform.C129_window_violated",
    "OptiPrism.Platform.C129_custom_violated"
   ],
   "note": "Proved in every state of the system for requests without the parts that are not implemented. Violated: an empty list of groups of filters, breakdowns or constants by a group that does not exist, exclusions filtered by custom properties or lists with NULL, exclusions between steps counted from 0, session windows, windows and periods that are too long, custom events first in a step."
  },
  {
   "property": "C13",
   "status": "proved",
   "theorems": [
    "OptiPrism.Storage.C13_replacing_block",
    "OptiPrism.Storage.C13_other_key_width_loses_rows"
   ],
   "note": ""
  },
  {
   "property": "C130",
   "status": "partial",
   "theorems": [
    "OptiPrism.Platform.C130_partial",
    "OptiPrism.Platform.C130_last_refused",
    "OptiPrism.Platform.C130_project_violated",
    "OptiPrism.Platform.C130_times_violated",
    "OptiPrism.Platform.C130_pattern_violated"
   ],
   "note": "Proved in every state of the system for the rows of the project and regular events with at most one group of filters. Missing, and violated: rows of other projects are taken as well, numbers for times in steps, patterns in exclusions. Excluding up to the last step is refused (C130_last_refused)."
  },
  {
   "property": "C131",
   "status": "partial",
   "theorems": [
    "OptiPrism.Platform.C131_partial",
    "OptiPrism.Platform.C131_violated",
    "OptiPrism.Platform.C131_typed_violated",
    "OptiPrism.Platform.C131_window_violated"
   ],
   "note": "Proved for every planned funnel. Missing, and violated: columns of the filters of custom events, groups by columns matched against patterns, windows that overflow where that is not checked."
  },
  {
   "property": "C132",
   "status": "partial",
   "theorems": [
    "OptiPrism.Platform.C132_partial",
    "OptiPrism.Platform.C132_violated",
    "OptiPrism.Platform.C132_values_violated",
    "OptiPrism.Platform.C132_none_violated",
    "OptiPrism.Platform.C132_exclusions_violated"
   ],
   "note": "Proved exactly for filters with a list of values other than comparisons of 32-bit numbers, and for requests in terms of their filters. Violated: comparisons of 32-bit numbers are refused, filters without a list of values pass exactly for nullable properties, filters of exclusions are not checked."
  },
  {
   "property": "C133",
   "status": "partial",
   "theorems": [
    "OptiPrism.Platform.C133_partial",
    "OptiPrism.Platform.C133_panics",
    "OptiPrism.Platform.C133_all",
    "OptiPrism.Platform.C133_every",
    "OptiPrism.Platform.C133_numbered",
    "OptiPrism.Platform.C133_violated"
   ],
   "note": "Proved where the number of the event is among the properties asked for, events come with lists of filters, and the request has no filters of its own. Violated: properties without the number are always a panic, all properties are labelled by position in an unrelated list, and a panic if the table has more columns. Filters of the request are ignored and events without filters dropped (C118)."
  },
  {
   "property": "C134",
   "status": "partial",
   "theorems": [
    "OptiPrism.Platform.C134_partial",
    "OptiPrism.Platform.C134_violated"
   ],
   "note": "Proved which columns are read, and that they suffice where properties in the filters of events are among those asked for. Violated: columns of the filters of events are not read otherwise."
  },
  {
   "property": "C135",
   "status": "partial",
   "theorems": [
    "OptiPrism.Platform.C135_partial",
    "OptiPrism.Platform.C135_reads",
    "OptiPrism.Platform.C135_all",
    "OptiPrism.Platform.C135_panics",
    "OptiPrism.Platform.C135_time_violated",
    "OptiPrism.Platform.C135_sort_violated",
    "OptiPrism.Platform.C135_violated"
   ],
   "note": "Proved where properties of the group are asked for, no order is, and not both a period and filters; and that such a search reads the columns it needs. Violated: the period is forgotten where there are filters, the order always; all properties are labelled by position in an unrelated list, and a panic if the table has more columns; properties of events pass validation and then panic."
  },
  {
   "property": "C136",
   "status": "partial",
   "theorems": [
    "OptiPrism.Platform.C136_partial",
    "OptiPrism.Platform.C136_event",
    "OptiPrism.Platform.C136_group",
    "OptiPrism.Platform.C136_unknown",
    "OptiPrism.Platform.C136_violated"
   ],
   "note": "Proved for records without missing values, and exactly what is shown otherwise. Violated: missing values are shown as whatever is in the buffer; a number no event has is a panic."
  },
  {
   "property": "C137",
   "status": "partial",
   "theorems": [
    "OptiPrism.Platform.C137_partial",
    "OptiPrism.Platform.C137_served",
    "OptiPrism.Platform.C137_reads",
    "OptiPrism.Platform.C137_groups",
    "OptiPrism.Platform.C137_times_violated",
    "OptiPrism.Platform.C137_custom_violated",
    "OptiPrism.Platform.C137_violated"
   ],
   "note": "Proved for properties of events, where the filter is a pattern, asks for presence, or is about a property that is neither coded by a dictionary nor a time. Violated: the filter on values is built for keys of the dictionary and applied to decoded names; numbers for times stay decimals; every property of a group whose column is not in the table of events is a panic; columns in the filters of custom events are not read."
  },
  {
   "property": "C138",
   "status": "partial",
   "theorems": [
    "OptiPrism.Platform.C138_partial",
    "OptiPrism.Platform.C138_single",
    "OptiPrism.Platform.C138_decimals",
    "OptiPrism.Platform.C138_missing_violated",
    "OptiPrism.Platform.C138_large_violated",
    "OptiPrism.Platform.C138_sent_violated"
   ],
   "note": "Proved for columns without missing numbers and decimals of at most 96 bits, and for single records. Violated: in columns a missing number is shown as 0; a decimal of more than 96 bits, such as a sum, is a panic; with the scale dropped by the ingester, numbers sent with at most twelve digits are all shown as 0."
  },
  {
   "property": "C139",
   "status": "partial",
   "theorems": [
    "OptiPrism.Platform.C139_partial",
    "OptiPrism.Platform.C139_ratio",
    "OptiPrism.Platform.C139_whole",
    "OptiPrism.Platform.C139_average",
    "OptiPrism.Platform.C139_labels",
    "OptiPrism.Platform.C139_alike",
    "OptiPrism.Platform.C139_missing_violated",
    "OptiPrism.Platform.C139_violated"
   ],
   "note": "Proved: steps, names, rows and numbers are in their places for any number of workers; with one worker the ratio is right to half a thousandth and the two ratios add up to 100; groups that are there and have at most three digits after the point can be told apart. Violated: a missing string is labelled like the empty one, decimals by their rounded values; a missing decimal by what stands in its slot, a panic if that is large."
  },
  {
   "property": "C14",
   "status": "proved",
   "theorems": [
    "OptiPrism.Storage.C14_flush_keeps_view"
   ],
   "note": "Append-only tables, every clean state (what histories without crashes reach), every sort, chunking and heap tie-breaking: flush succeeds, scans before and after return the same multiset, the new part range contains every key and both ends are attained."
  },
  {
   "property": "C140",
   "status": "partial",
   "theorems": [
    "OptiPrism.Platform.C140_partial",
    "OptiPrism.Platform.C140_empty",
    "OptiPrism.Platform.C140_cells",
    "OptiPrism.Platform.C140_names",
    "OptiPrism.Platform.C140_columns",
    "OptiPrism.Platform.C140_labels_violated",
    "OptiPrism.Platform.C140_violated"
   ],
   "note": "Proved within the limits of C63 (hash of the pivot, buffers), for breakdowns of the types the limit knows and numbers of at most 96 bits; a value that is missing is shown as 0. Violated: a chart by a boolean or a timestamp property is a panic; different queries have the same label, and names given in the request are not shown."
  },
  {
   "property": "C141",
   "status": "proved",
   "theorems": [
    "OptiPrism.Platform.C141"
   ],
   "note": "From the requests to the columns of the answer; fewer than 10^12 requests, and moments that are printed differently."
  },
  {
   "property": "C142",
   "status": "partial",
   "theorems": [
    "OptiPrism.Platform.C142_partial",
    "OptiPrism.Platform.C142_violated"
   ],
   "note": "From the requests to the columns of the answer. Missing: requests with both ids (C142_violated), and rows of a user that reach several workers or not one after the other (C120_workers_violated)."
  },
  {
   "property": "C143",
   "status": "partial",
   "theorems": [
    "OptiPrism.Platform.C143_partial",
    "OptiPrism.Platform.C143_violated"
   ],
   "note": "From the tables of the events to the columns of the answer. Missing: breakdowns of some of the events by a column that may not be NULL (C143_violated); the hypotheses of C140_partial (kinds known to the limit, no hash collision within twice the buffer)."
  },
  {
   "property": "C144",
   "status": "partial",
   "theorems": [
    "OptiPrism.Ingest.C144_partial",
    "OptiPrism.Ingest.C144_refused",
    "OptiPrism.Ingest.C144_null",
    "OptiPrism.Ingest.C144_identify_partial",
    "OptiPrism.Ingest.C144_identify_refused",
    "OptiPrism.Ingest.C144_accepted_partial",
    "OptiPrism.Ingest.C144_dates",
    "OptiPrism.Ingest.C144_violated"
   ],
   "note": "The grammars of JSON, dates, numbers and addresses are parameters. Missing: string values that read as dates, which are taken for dates and refused (C144_dates, C144_violated)."
  },
  {
   "property": "C145",
   "status": "partial",
   "theorems": [
    "OptiPrism.Platform.C145_refused",
    "OptiPrism.Platform.C145_reads",
    "OptiPrism.Platform.C145_permission",
    "OptiPrism.Platform.C145_served",
    "OptiPrism.Platform.C145_dashboard",
    "OptiPrism.Platform.C145_dashboard_update",
    "OptiPrism.Platform.C145_event",
    "OptiPrism.Platform.C145_event_update",
    "OptiPrism.Platform.C145_property",
    "OptiPrism.Platform.C145_property_update",
    "OptiPrism.Platform.C145_custom_partial",
    "OptiPrism.Platform.C145_custom_update_partial",
    "OptiPrism.Platform.C145_groups",
    "OptiPrism.Platform.C145_group_created",
    "OptiPrism.Platform.C145_number_stored",
    "OptiPrism.Platform.C145_number_violated",
    "OptiPrism.Platform.C145_absent_violated",
    "OptiPrism.Platform.C145_event_properties",
    "OptiPrism.Platform.C145_attached_violated",
    "OptiPrism.Platform.C145_group_display_violated",
    "OptiPrism.Platform.C145_route",
    "OptiPrism.Platform.C145_route_get_partial",
    "OptiPrism.Platform.C145_route_violated"
   ],
   "note": "Proved in full for dashboards, events but their properties, properties and groups. Missing: custom events whose filters have numbers or no value (C145_number_violated, C145_absent_violated), properties attached to events (C145_attached_violated), display names of groups (C145_group_display_violated), reading properties of groups by their route (C145_route_violated)."
  },
  {
   "property": "C146",
   "status": "proved",
   "theorems": [
    "OptiPrism.Platform.C146_call",
    "OptiPrism.Platform.C146_conversation",
    "OptiPrism.Platform.C146_silent",
    "OptiPrism.Platform.C146_hash",
    "OptiPrism.Platform.C146_backup",
    "OptiPrism.Platform.C146_settings"
   ],
   "note": "Tokens are symbolic, so the signing keys are not among the secrets; whether the keys of the settings are empty may be told. Charts and searches do not read these records and are not part of the conversations."
  },
  {
   "property": "C147",
   "status": "partial",
   "theorems": [
    "OptiPrism.Platform.C147_refused",
    "OptiPrism.Platform.C147_reads",
    "OptiPrism.Platform.C147_permission",
    "OptiPrism.Platform.C147_permission_project",
    "OptiPrism.Platform.C147_account",
    "OptiPrism.Platform.C147_account_update_partial",
    "OptiPrism.Platform.C147_password",
    "OptiPrism.Platform.C147_password_update",
    "OptiPrism.Platform.C147_profile",
    "OptiPrism.Platform.C147_backup_shown",
    "OptiPrism.Platform.C147_organization",
    "OptiPrism.Platform.C147_organization_update",
    "OptiPrism.Platform.C147_project_update",
    "OptiPrism.Platform.C147_backup",
    "OptiPrism.Platform.C147_backup_refused",
    "OptiPrism.Platform.C147_lists",
    "OptiPrism.Platform.C147_projects_partial",
    "OptiPrism.Platform.C147_deleted",
    "OptiPrism.Platform.C147_bookmark_partial",
    "OptiPrism.Platform.C147_dropped",
    "OptiPrism.Platform.C147_account_violated",
    "OptiPrism.Platform.C147_backup_file_violated"
   ],
   "note": "Proved for organizations, backups, project updates, lists and deletions, and for accounts but two fields. Missing because the code does otherwise: a new role and the duty to change the password are acknowledged and dropped, two backups within an hour have the same file, bookmarks show the query as asked only if it is tidy (C123), and the list of projects needs names and tokens kept apart (C35)."
  },
  {
   "property": "C148",
   "status": "partial",
   "theorems": [
    "OptiPrism.Platform.C148_off",
    "OptiPrism.Platform.C148_waiting",
    "OptiPrism.Platform.C148_asked",
    "OptiPrism.Platform.C148_made",
    "OptiPrism.Platform.C148_scheduled",
    "OptiPrism.Platform.C148_untouched",
    "OptiPrism.Platform.C148_once_partial",
    "OptiPrism.Platform.C148_leads",
    "OptiPrism.Platform.C148_kept_partial",
    "OptiPrism.Platform.C148_restart",
    "OptiPrism.Platform.C148_ended",
    "OptiPrism.Platform.C148_once_violated",
    "OptiPrism.Platform.C148_s3_violated",
    "OptiPrism.Platform.C148_delivered_violated",
    "OptiPrism.Platform.C148_directory_violated",
    "OptiPrism.Platform.C148_uploading_violated"
   ],
   "note": "Proved: what a turn runs and makes, and how it ends, for all states and outcomes. Missing because the code does otherwise: one backup a minute from the tenth backup on, backups to S3, the directory of the settings, uploads cut short."
  },
  {
   "property": "C149",
   "status": "partial",
   "theorems": [
    "OptiPrism.Platform.C149_ready_partial",
    "OptiPrism.Platform.C149_again",
    "OptiPrism.Platform.C149_starts",
    "OptiPrism.Platform.C149_keeps",
    "OptiPrism.Platform.C149_never",
    "OptiPrism.Platform.C149_organization_violated",
    "OptiPrism.Platform.C149_restart_violated"
   ],
   "note": "Proved: what any number of interrupted starts leave, when a start succeeds, and what it keeps. Missing because the code does otherwise: an organization after a start interrupted between the two transactions, a start after account 1 was removed."
  },
  {
   "property": "C15",
   "status": "partial",
   "theorems": [
    "OptiPrism.Storage.C15_partial",
    "OptiPrism.Storage.C15_violated",
    "OptiPrism.Storage.C15_early_crash_heals",
    "OptiPrism.Storage.C15_orphan_blocks_flush"
   ],
   "note": "Exact characterisation of the crash points of a flush: the table recovers exactly its rows iff the crash comes before the manifest write begins or after the new log exists. The full claim is refuted: duplicates after the manifest write, unopenable with a torn manifest or with the old log removed. Missing: nothing provable; the code violates the claim at crash points 3-5."
  },
  {
   "property": "C150",
   "status": "partial",
   "theorems": [
    "OptiPrism.Platform.C150_reach_partial",
    "OptiPrism.Platform.C150_only_partial",
    "OptiPrism.Platform.C150_exact",
    "OptiPrism.Platform.C150_open",
    "OptiPrism.Platform.C150_one",
    "OptiPrism.Platform.C150_files",
    "OptiPrism.Platform.C150_builds",
    "OptiPrism.Platform.C150_name_violated",
    "OptiPrism.Platform.C150_group_violated",
    "OptiPrism.Platform.C150_nested_violated"
   ],
   "note": "Proved for all paths, methods and numbers: 74 of 76 handlers get the requests addressed to them, those that take something from the path get no others, nothing but four handlers runs without a token, and the router can be built. Missing because the code does otherwise: events by name are never found, properties of groups are looked up with group and property exchanged, and two prefixes repeat all earlier routes."
  },
  {
   "property": "C151",
   "status": "partial",
   "theorems": [
    "OptiPrism.Platform.C151_safe",
    "OptiPrism.Platform.C151_changes",
    "OptiPrism.Platform.C151_closed",
    "OptiPrism.Platform.C151_refused_partial",
    "OptiPrism.Platform.C151_requests",
    "OptiPrism.Platform.C151_history",
    "OptiPrism.Platform.C151_unauthorized_partial",
    "OptiPrism.Platform.C151_gone",
    "OptiPrism.Platform.C151_account",
    "OptiPrism.Platform.C151_org",
    "OptiPrism.Platform.C151_backup",
    "OptiPrism.Platform.C151_project",
    "OptiPrism.Platform.C151_event",
    "OptiPrism.Platform.C151_prop",
    "OptiPrism.Platform.C151_dashboard",
    "OptiPrism.Platform.C151_created",
    "OptiPrism.Platform.C151_deleted",
    "OptiPrism.Platform.C151_content",
    "OptiPrism.Platform.C151_success",
    "OptiPrism.Platform.C151_statuses",
    "OptiPrism.Platform.C151_groups",
    "OptiPrism.Platform.C151_groups_violated",
    "OptiPrism.Platform.C151_secrets",
    "OptiPrism.Platform.C151_gone_violated",
    "OptiPrism.Platform.C151_backup_violated"
   ],
   "note": "Proved for all requests, stores and times: GET and HEAD change nothing; only signing up and the ingester change anything without a caller; a refusal changes nothing (except possibly in the ingester and in the making of projects, which are left open here) and has nothing but a status in it; any conversation leaves a store that requests of the metadata model reach; requests for one thing get 403, 404 or the thing; an account made is got back, one deleted is not; replies do not depend on stored secrets. Missing: a token of a deleted account gets 404 rather than 401 (C151_gone_violated), and whoever makes a backup is not told its number (C151_backup_violated)."
  },
  {
   "property": "C152",
   "status": "partial",
   "theorems": [
    "OptiPrism.Platform.C152_keys",
    "OptiPrism.Platform.C152_call",
    "OptiPrism.Platform.C152_changed",
    "OptiPrism.Platform.C152_readonly",
    "OptiPrism.Platform.C152_request_partial",
    "OptiPrism.Platform.C152_writer_partial",
    "OptiPrism.Platform.C152_reader_partial",
    "OptiPrism.Platform.C152_conversation_partial"
   ],
   "note": "Proved for all calls, requests and conversations on all reachable stores: to somebody without a part in a project (no administrator of the installation, neither owner nor administrator of the organization of the token, no role in the project) the answers are the same whatever is kept in the project, and what is kept in it stays the same; whatever changes it was asked for by somebody who may do that in this project; a reader of the project changes nothing but bookmarks. Missing: track, identify and the making of projects (for these see C153), and that charts and records read no metadata of other projects (assumed here, proved of their models in C160)."
  },
  {
   "property": "C153",
   "status": "partial",
   "theorems": [
    "OptiPrism.Ingest.C153_transformers",
    "OptiPrism.Ingest.C153_track",
    "OptiPrism.Ingest.C153_identify",
    "OptiPrism.Ingest.C153_project",
    "OptiPrism.Ingest.C153_requests_partial",
    "OptiPrism.Ingest.C153_tokens_partial",
    "OptiPrism.Ingest.C153_lock_violated"
   ],
   "note": "Proved for all worlds that agree outside a project and all requests with the token of another project (or of none): the outcome, the tables and the rows added are the same, the rows are all of the other project, and what is kept in the project is unchanged; likewise for the making of another project and for any number of requests. Missing because the code does otherwise: a request that panics poisons the lock all projects share, so whether a request is answered at all depends on requests for other projects (C153_lock_violated)."
  },
  {
   "property": "C154",
   "status": "partial",
   "theorems": [
    "OptiPrism.Platform.C154_partial",
    "OptiPrism.Platform.C154_total",
    "OptiPrism.Platform.C154_readable",
    "OptiPrism.Platform.C154_apart",
    "OptiPrism.Platform.C154_requests",
    "OptiPrism.Platform.C154_full_scalar",
    "OptiPrism.Platform.C154_types",
    "OptiPrism.Platform.C154_violated",
    "OptiPrism.Platform.C154_read_violated"
   ],
   "note": "Proved for all values: what is written of a value is read as the same value unless it is a time of day in milliseconds; just dictionaries, two kinds of intervals and kinds without a stored form cannot be written; the values of requests are all kept. Missing because the code does otherwise: times of day in milliseconds are read as seconds (C154_violated), and some stored forms cannot be read (C154_read_violated)."
  },
  {
   "property": "C155",
   "status": "partial",
   "theorems": [
    "OptiPrism.Query.C155_partial",
    "OptiPrism.Query.C155_batches",
    "OptiPrism.Query.C155_first_violated",
    "OptiPrism.Query.C155_average_violated",
    "OptiPrism.Query.C155_null_violated",
    "OptiPrism.Query.C155_scale_partial",
    "OptiPrism.Query.C155_scale_violated",
    "OptiPrism.Query.C155_kind_violated"
   ],
   "note": "Exact when the first user has a row that counts, no row that counts has NULL, and the number compared with has the scale of the column; sums are unbounded."
  },
  {
   "property": "C156",
   "status": "partial",
   "theorems": [
    "OptiPrism.Storage.C156_first",
    "OptiPrism.Storage.C156_start",
    "OptiPrism.Storage.C156_kept",
    "OptiPrism.Storage.C156_again",
    "OptiPrism.Storage.C156_interrupted_partial",
    "OptiPrism.Storage.C156_stuck",
    "OptiPrism.Storage.C156_interrupted_violated",
    "OptiPrism.Storage.C156_settings_violated"
   ],
   "note": "Everything is proved except that ended starts are made good: this holds for those ended between two tables only. A start ended within a table makes the store unusable for ever, and later configurations have no effect."
  },
  {
   "property": "C157",
   "status": "partial",
   "theorems": [
    "OptiPrism.Platform.C157_search",
    "OptiPrism.Platform.C157_chart_partial",
    "OptiPrism.Platform.C157_chart_empty",
    "OptiPrism.Platform.C157_counts_violated",
    "OptiPrism.Platform.C157_breakdowns_violated",
    "OptiPrism.Platform.C157_violated"
   ],
   "note": "Proved for searches, and for charts without breakdowns whose aggregates are decimals. Counts and breakdowns behind the date panic."
  },
  {
   "property": "C158",
   "status": "partial",
   "theorems": [
    "OptiPrism.Storage.C158_agree",
    "OptiPrism.Storage.C158_partial",
    "OptiPrism.Storage.C158_meant",
    "OptiPrism.Storage.C158_schema_meant",
    "OptiPrism.Storage.C158_fields",
    "OptiPrism.Storage.C158_apart",
    "OptiPrism.Storage.C158_panics",
    "OptiPrism.Storage.C158_schema_panics",
    "OptiPrism.Storage.C158_read",
    "OptiPrism.Storage.C158_size_violated",
    "OptiPrism.Storage.C158_lists_violated",
    "OptiPrism.Storage.C158_violated"
   ],
   "note": "Everything is proved except for list types, which become the types of their elements, and sizes of more than 31 bits."
  },
  {
   "property": "C159",
   "status": "partial",
   "theorems": [
    "OptiPrism.Ingest.C159_partial",
    "OptiPrism.Ingest.C159_time",
    "OptiPrism.Ingest.C159_users_violated",
    "OptiPrism.Ingest.C159_late_violated",
    "OptiPrism.Ingest.C159_none_violated",
    "OptiPrism.Ingest.C159_violated"
   ],
   "note": "The exact number and moments of users are proved for all draws: one user less than asked for, and none after the end only if the end is that of a day."
  },
  {
   "property": "C16",
   "status": "proved",
   "theorems": [
    "OptiPrism.Storage.C16_restart",
    "OptiPrism.Storage.C16_three_levels"
   ],
   "note": "C16_restart: every history of inserts, flushes, compactions, every configuration and merger; C16_three_levels additionally compares the visible rows after restart with the inserted ones (configurations whose compaction loop only merges level 0)."
  },
  {
   "property": "C160",
   "status": "partial",
   "theorems": [
    "OptiPrism.Platform.C160_metadata",
    "OptiPrism.Platform.C160_beside",
    "OptiPrism.Platform.C160_stranger",
    "OptiPrism.Platform.C160_search_partial",
    "OptiPrism.Platform.C160_groups_partial",
    "OptiPrism.Platform.C160_charts_partial",
    "OptiPrism.Platform.C160_values",
    "OptiPrism.Platform.C160_records",
    "OptiPrism.Platform.C160_violated",
    "OptiPrism.Platform.C160_funnel_violated"
   ],
   "note": "Proved: on any two stores that agree in a project all its queries are planned and answered alike; values and single records depend on the rows of the project only, searches and charts do so unless a pattern filter decodes a column first. Violated for pattern filters (a row of another project ends the query) and for funnels (rows of all projects are kept)."
  },
  {
   "property": "C161",
   "status": "partial",
   "theorems": [
    "OptiPrism.Ingest.C161_no_panic",
    "OptiPrism.Ingest.C161_story",
    "OptiPrism.Ingest.C161_spent",
    "OptiPrism.Ingest.C161_known",
    "OptiPrism.Ingest.C161_once",
    "OptiPrism.Ingest.C161_checkout",
    "OptiPrism.Ingest.C161_times",
    "OptiPrism.Ingest.C161_until_partial",
    "OptiPrism.Ingest.C161_no_refunds",
    "OptiPrism.Ingest.C161_cart_partial",
    "OptiPrism.Ingest.C161_added_violated",
    "OptiPrism.Ingest.C161_until_violated"
   ],
   "note": "Proved by induction over turns and sessions for all draws: no panic, registration and identity, checkout, spent total, order of times. Violated: the first events of a later session can lie up to 1330560 seconds after the end, and registering repeats the event before it (a cart never has more than was said to be added). Weights are kept as zero or not."
  },
  {
   "property": "C162",
   "status": "partial",
   "theorems": [
    "OptiPrism.Ingest.C162_store",
    "OptiPrism.Ingest.C162_products",
    "OptiPrism.Ingest.C162_samples",
    "OptiPrism.Ingest.C162_deals_partial",
    "OptiPrism.Ingest.C162_sold",
    "OptiPrism.Ingest.C162_revenue",
    "OptiPrism.Ingest.C162_deals_violated",
    "OptiPrism.Ingest.C162_wanted_violated"
   ],
   "note": "Proved for all files, shuffles and draws. Deals can be drawn without a panic only if five products have a discount, and only the first four products can be wanted. Prices are integers; the weights of the spline are left out."
  },
  {
   "property": "C163",
   "status": "partial",
   "theorems": [
    "OptiPrism.Ingest.C163_share",
    "OptiPrism.Ingest.C163_weights",
    "OptiPrism.Ingest.C163_people_partial",
    "OptiPrism.Ingest.C163_everybody",
    "OptiPrism.Ingest.C163_firms",
    "OptiPrism.Ingest.C163_refused",
    "OptiPrism.Ingest.C163_accepted",
    "OptiPrism.Ingest.C163_firms_violated"
   ],
   "note": "Proved for all files, shuffles and draws, if there is a company: a file without companies is accepted and then drawing anybody panics. The made-up names, addresses and identifiers are left out; WeightedIndex is modelled from the documented behaviour of the crate rand."
  },
  {
   "property": "C164",
   "status": "partial",
   "theorems": [
    "OptiPrism.Query.C164_skip_partial",
    "OptiPrism.Query.C164_ignored_violated",
    "OptiPrism.Query.C164_dropped_violated",
    "OptiPrism.Query.C164_unique_violated"
   ],
   "note": "Violated: unless users are counted once a filter changes nothing at all (proved for all funnels, rows and batches); if they are, a filter only decides whether the rest of a user is skipped after a conversion, which is proved exactly."
  },
  {
   "property": "C165",
   "status": "partial",
   "theorems": [
    "OptiPrism.Ingest.C165_rows_partial",
    "OptiPrism.Ingest.C165_run_partial",
    "OptiPrism.Ingest.C165_left_partial",
    "OptiPrism.Ingest.C165_violated",
    "OptiPrism.Ingest.C165_twice_violated"
   ],
   "note": "Proved for all sessions, clocks and durations: a run that ends writes exactly one row for each session that is over, with the next numbers of the project, and leaves exactly the sessions that are not over. Violated: the time of the row is in seconds, its length is the time since the last hit, and after a crash before the deletion the row is written again. A run that fails is a panic of the thread."
  },
  {
   "property": "C17",
   "status": "partial",
   "theorems": [
    "OptiPrism.Storage.C17_partial",
    "OptiPrism.Storage.C17_three_levels",
    "OptiPrism.Storage.C17_no_duplicates_when_small",
    "OptiPrism.Storage.C17_duplicates_when_threshold_ge",
    "OptiPrism.Storage.C17_violated",
    "OptiPrism.Storage.C17_l0_move_dangles",
    "OptiPrism.Storage.C17_pending_rename_panics"
   ],
   "note": "False in general: compaction above level 0 can choose a part twice and duplicate rows (C17_violated). C17_partial: rows are preserved exactly when no choice repeats a part and l0_max_parts >= 1. The merger is a parameter specified by IsMerge. Concurrent flushes during a compaction are not covered."
  },
  {
   "property": "C18",
   "status": "proved",
   "theorems": [
    "OptiPrism.Storage.C18_ids_never_reused"
   ],
   "note": "Every history, configuration and merger behaviour; histories end at the first panic."
  },
  {
   "property": "C19",
   "status": "proved",
   "theorems": [
    "OptiPrism.Storage.C19_removes_only_garbage",
    "OptiPrism.Storage.C19_keeps_live",
    "OptiPrism.Storage.C19_collects",
    "OptiPrism.Storage.C19_no_panic",
    "OptiPrism.Storage.C19_active_log_removed"
   ],
   "note": "Every directory content, manifest and run of opens/closes. \"Current log\" is the log id in the manifest; C19_active_log_removed shows that after a crash inside a flush the log actually being written is an older one and is removed. Directory changes by other threads during a pass are not modelled."
  },
  {
   "property": "C20",
   "status": "proved",
   "theorems": [
    "OptiPrism.Storage.C20_accounting",
    "OptiPrism.Storage.C20_other_files",
    "OptiPrism.Storage.C20_release_same",
    "OptiPrism.Storage.C20_release_underflow",
    "OptiPrism.Storage.C20_paths_distinct"
   ],
   "note": "Every sequence of opens and closes; also the behaviour of a release build, and that distinct files have distinct path strings."
  },
  {
   "property": "C21",
   "status": "partial",
   "theorems": [
    "OptiPrism.Storage.C21_partial",
    "OptiPrism.Storage.C21_sound",
    "OptiPrism.Storage.C21_no_error",
    "OptiPrism.Storage.C21_exact",
    "OptiPrism.Storage.C21_violated",
    "OptiPrism.Storage.C21_group_misses"
   ],
   "note": "False in general: the search stops at the first part whose key range covers the key and at the first fitting row group. C21_exact gives the exact condition under which a stored row is found."
  },
  {
   "property": "C22",
   "status": "partial",
   "theorems": [
    "OptiPrism.Storage.C22_partial",
    "OptiPrism.Storage.C22_violated",
    "OptiPrism.Storage.C22_lost_update",
    "OptiPrism.Storage.C22_eviction"
   ],
   "note": "False in general: a failed replace pops the cached version, a row changed by another path is not noticed, and the bounded cache evicts."
  },
  {
   "property": "C23",
   "status": "partial",
   "theorems": [
    "OptiPrism.Storage.C23_in_table",
    "OptiPrism.Storage.C23_durable_partial",
    "OptiPrism.Storage.C23_durable_violated",
    "OptiPrism.Storage.C23_second_window",
    "OptiPrism.Storage.C23_scan_partial",
    "OptiPrism.Storage.C23_scan_violated"
   ],
   "note": "Every interleaving of the lock-protected sections of any number of inserts, flushes and scans. Durability fails for an insert that a flush overlaps, scans fail to see rows flushed between their two sections; both halves proved for operations not overlapped by a flush."
  },
  {
   "property": "C24",
   "status": "proved",
   "theorems": [
    "OptiPrism.Storage.C24_backup_restore",
    "OptiPrism.Storage.C24_same_memory",
    "OptiPrism.Storage.C24_cut_refused",
    "OptiPrism.Storage.C24_failed_restore_empties"
   ],
   "note": "Every list of tables at rest, every checksum function; the bincode codec of the table list is a parameter assumed to round-trip. Concurrent flushes during the copy are outside the property (no one writes)."
  },
  {
   "property": "C25",
   "status": "proved",
   "theorems": [
    "OptiPrism.Meta.C25_ids_increase"
   ],
   "note": "Every history of one collection mixed with arbitrary changes elsewhere, up to 2^64 operations (then the u64 counter wraps)."
  },
  {
   "property": "C26",
   "status": "partial",
   "theorems": [
    "OptiPrism.Meta.C26_partial",
    "OptiPrism.Meta.C26_serializable",
    "OptiPrism.Meta.C26_violated",
    "OptiPrism.Meta.C26_stale_violated"
   ],
   "note": "All interleavings of any number of creates, as programs of reads, locked writes and commits: executions without stale reads at commit are serializable and give increasing identifiers. Nothing in the code excludes stale reads: two overlapping creates get one identifier, even two non-overlapping ones if a third overlaps both."
  },
  {
   "property": "C27",
   "status": "partial",
   "theorems": [
    "OptiPrism.Meta.C27_refines",
    "OptiPrism.Meta.C27_lookup",
    "OptiPrism.Meta.C27_distinct",
    "OptiPrism.Meta.C27_create",
    "OptiPrism.Meta.C27_update",
    "OptiPrism.Meta.C27_rename_frees",
    "OptiPrism.Meta.C27_delete_frees",
    "OptiPrism.Meta.C27_indexes_faithful",
    "OptiPrism.Meta.C27_deletes_free",
    "OptiPrism.Meta.C27_team_create",
    "OptiPrism.Meta.C27_account_create",
    "OptiPrism.Meta.C27_event_create",
    "OptiPrism.Meta.C27_event_update",
    "OptiPrism.Meta.C27_event_rename",
    "OptiPrism.Meta.C27_projects_partial",
    "OptiPrism.Meta.C27_projects_violated"
   ],
   "note": "Every history of requests to the whole store (fewer than 2^62, so that no identifier wraps), for teams, events, accounts, organizations, custom events and properties. Projects keep names and tokens in one index: C27_projects_violated shows the consequence, C27_projects_partial holds when tokens and names have different shapes."
  },
  {
   "property": "C28",
   "status": "proved",
   "theorems": [
    "OptiPrism.Meta.C28_keys_distinct",
    "OptiPrism.Meta.C28_projects_isolated",
    "OptiPrism.Meta.C28_listing_isolated",
    "OptiPrism.Meta.C28_listing_complete",
    "OptiPrism.Meta.C28_sessions_isolated",
    "OptiPrism.Meta.C28_group_names_isolated",
    "OptiPrism.Meta.C28_slashes_collide"
   ],
   "note": "Every kind of key the metadata crate writes. Table, dictionary and type names must contain no slash (they are constants and generated column names in the code); C28_slashes_collide shows the hypothesis is needed. All other strings are arbitrary."
  },
  {
   "property": "C29",
   "status": "proved",
   "theorems": [
    "OptiPrism.Meta.C29_stable",
    "OptiPrism.Meta.C29_bijection",
    "OptiPrism.Meta.C29_create_key_violated"
   ],
   "note": "Every history of arbitrary metadata requests (fewer than 2^62) in which create_key is not used on the dictionary; C29_create_key_violated shows what create_key does. Table and column names without slash (as in C28)."
  },
  {
   "property": "C30",
   "status": "proved",
   "theorems": [
    "OptiPrism.Meta.C30_stable",
    "OptiPrism.Meta.C30_update_stable",
    "OptiPrism.Meta.C30_injective",
    "OptiPrism.Meta.C30_fresh"
   ],
   "note": "Stability in every history, merges included; injectivity and success in histories without merges (the quantifier of the property), fewer than 2^62 requests."
  },
  {
   "property": "C31",
   "status": "partial",
   "theorems": [
    "OptiPrism.Meta.C31_same_partial",
    "OptiPrism.Meta.C31_new_visitor_violated",
    "OptiPrism.Meta.C31_known_user_violated"
   ],
   "note": "False: merge_with_anonymous writes the decimal digits of the id into the binary sequence, so the next new visitor panics (proved for every history, unless the number has eight digits); an already known user keeps a number of their own. The first half holds if the user was unknown."
  },
  {
   "property": "C32",
   "status": "proved",
   "theorems": [
    "OptiPrism.Meta.C32_acyclic",
    "OptiPrism.Meta.C32_expand"
   ],
   "note": "Every history of requests of every module (fewer than 2^62). References are read off the live records; expansion is event_expression of the query crate without its filters."
  },
  {
   "property": "C33",
   "status": "partial",
   "theorems": [
    "OptiPrism.Meta.C33_partial",
    "OptiPrism.Meta.C33_created_partial",
    "OptiPrism.Meta.C33_updated_partial",
    "OptiPrism.Meta.C33_violated"
   ],
   "note": "Violated by the code: updating a nested event deepens the events above it (C33_violated). Holds for histories in which no event list is changed after creation, and for the event itself right after each create or update."
  },
  {
   "property": "C34",
   "status": "partial",
   "theorems": [
    "OptiPrism.Meta.C34_partial",
    "OptiPrism.Meta.C34_one_role_partial",
    "OptiPrism.Meta.C34_create_violated",
    "OptiPrism.Meta.C34_delete_account_violated",
    "OptiPrism.Meta.C34_delete_org_violated"
   ],
   "note": "False as stated: accounts can be created or updated with organizations that do not list them, and deleting an account or an organization leaves the other side (three witnesses). Proved for every history, all other requests included, that does none of these."
  },
  {
   "property": "C35",
   "status": "partial",
   "theorems": [
    "OptiPrism.Meta.C35_partial",
    "OptiPrism.Meta.C35_distinct_partial",
    "OptiPrism.Meta.C35_accepts",
    "OptiPrism.Meta.C35_violated",
    "OptiPrism.Meta.C35_lost_token"
   ],
   "note": "False as stated: names and tokens share one index, so a project name is accepted as a token, and a project whose name equals its token loses its token when renamed. Proved for every history in which tokens and names have different shapes."
  },
  {
   "property": "C36",
   "status": "partial",
   "theorems": [
    "OptiPrism.Meta.C36_hit",
    "OptiPrism.Meta.C36_step_partial",
    "OptiPrism.Meta.C36_trace_partial",
    "OptiPrism.Meta.C36_clean_partial",
    "OptiPrism.Meta.C36_other_project",
    "OptiPrism.Meta.C36_early_violated"
   ],
   "note": "The part about hits is proved outright. The cleaner closes exactly the sessions whose last hit in whole seconds is at least the duration ago; because hits are stored in whole seconds a session idle up to one second less than its duration can be closed (C36_early_violated). Duration positive and below 2^63 seconds; the callback writes succeed."
  },
  {
   "property": "C37",
   "status": "partial",
   "theorems": [
    "OptiPrism.Meta.C37_settings_partial",
    "OptiPrism.Meta.C37_settings_iff_partial",
    "OptiPrism.Meta.C37_accepts",
    "OptiPrism.Meta.C37_resave",
    "OptiPrism.Meta.C37_start_hour_violated"
   ],
   "note": "False for a start hour other than 0 (serialize writes 0); every other field of every accepted settings value survives."
  },
  {
   "property": "C38",
   "status": "partial",
   "theorems": [
    "OptiPrism.Meta.C38_partial",
    "OptiPrism.Meta.C38_create",
    "OptiPrism.Meta.C38_violated"
   ],
   "note": "At most one idle backup, and creation refused exactly while one is idle, in every history without resets to idle; a running backup does not stop a second one (C38_violated)."
  },
  {
   "property": "C39",
   "status": "partial",
   "theorems": [
    "OptiPrism.Meta.C39_partial",
    "OptiPrism.Meta.C39_failure_shown",
    "OptiPrism.Meta.C39_completed_iff",
    "OptiPrism.Meta.C39_violated"
   ],
   "note": "Failed if delivery fails as well; completed exactly if the delivery succeeded, whatever happened to the archive (C39_completed_iff), so the claim is false (C39_violated). The steps of the job are decision logic over their outcomes."
  },
  {
   "property": "C40",
   "status": "partial",
   "theorems": [
    "OptiPrism.Meta.C40_partial",
    "OptiPrism.Meta.C40_system_partial",
    "OptiPrism.Meta.C40_violated",
    "OptiPrism.Meta.C40_system_violated"
   ],
   "note": "proved for all request histories in which no update changes type, data type or system flag (what the platform sends), for non-system properties of any collections of a project; a data-type update and same-named system properties of two collections violate it (witnesses)"
  },
  {
   "property": "C41",
   "status": "partial",
   "theorems": [
    "OptiPrism.Meta.C41_event_partial",
    "OptiPrism.Meta.C41_team_partial",
    "OptiPrism.Meta.C41_account_partial",
    "OptiPrism.Meta.C41_organization_partial",
    "OptiPrism.Meta.C41_project_partial",
    "OptiPrism.Meta.C41_dashboard_partial",
    "OptiPrism.Meta.C41_report_partial",
    "OptiPrism.Meta.C41_bookmark_partial",
    "OptiPrism.Meta.C41_backup_partial",
    "OptiPrism.Meta.C41_property_partial",
    "OptiPrism.Meta.C41_property_writable",
    "OptiPrism.Meta.C41_group_values",
    "OptiPrism.Meta.C41_group_values_writable",
    "OptiPrism.Meta.C41_group",
    "OptiPrism.Meta.C41_custom_event_partial",
    "OptiPrism.Meta.C41_event_properties_violated",
    "OptiPrism.Meta.C41_time_violated",
    "OptiPrism.Meta.C41_panel_violated",
    "OptiPrism.Meta.C41_empty_tags_violated",
    "OptiPrism.Meta.C41_null_filter_violated"
   ],
   "note": "False as stated: event property lists, fractions of seconds, empty lists, wide panel coordinates and filter parameters are lost. Exact characterisation of the records that come back unchanged, for every record kind; group values and group definitions always do. bincode (report queries) is a parameter assumed to round-trip."
  },
  {
   "property": "C42",
   "status": "proved",
   "theorems": [
    "OptiPrism.Platform.C42_root",
    "OptiPrism.Platform.C42_organization",
    "OptiPrism.Platform.C42_project",
    "OptiPrism.Platform.C42_no_role"
   ],
   "note": "exact characterisation of the three checks against an independent statement of the role tables"
  },
  {
   "property": "C43",
   "status": "partial",
   "theorems": [
    "OptiPrism.Platform.C43_partial",
    "OptiPrism.Platform.C43_members_partial",
    "OptiPrism.Platform.C43_list",
    "OptiPrism.Platform.C43_violated"
   ],
   "note": "holds when the token organization is that of the project, for callers owning/administering no organization, and for listings; violated otherwise: no endpoint compares the project organization with the token organization (witness: owner of organization 1 has full access to a project of organization 2)"
  },
  {
   "property": "C44",
   "status": "partial",
   "theorems": [
    "OptiPrism.Ingest.C44_partial",
    "OptiPrism.Ingest.C44_violated"
   ],
   "note": "Numbers with scale 0 keep their value; the scale is dropped otherwise (1.5 stored as 15)."
  },
  {
   "property": "C45",
   "status": "partial",
   "theorems": [
    "OptiPrism.Ingest.C45_partial",
    "OptiPrism.Ingest.C45_dictionary_partial",
    "OptiPrism.Ingest.C45_violated"
   ],
   "note": "Conversions yield the declared type or an error under Fits; numbers out of range panic, timestamps become Int64 cells."
  },
  {
   "property": "C46",
   "status": "partial",
   "theorems": [
    "OptiPrism.Ingest.C46_decode_iff",
    "OptiPrism.Ingest.C46_partial",
    "OptiPrism.Ingest.C46_violated"
   ],
   "note": "Exact characterisation: a string decodes iff its key fits the dictionary type; narrow dictionary types wrap around."
  },
  {
   "property": "C47",
   "status": "partial",
   "theorems": [
    "OptiPrism.Ingest.C47_partial",
    "OptiPrism.Ingest.C47_begin_seconds",
    "OptiPrism.Ingest.C47_violated"
   ],
   "note": "Event rows carry milliseconds; the row opening a session carries seconds (proved for every accepted request without campaign), so the full claim is refuted."
  },
  {
   "property": "C48",
   "status": "partial",
   "theorems": [
    "OptiPrism.Ingest.C48_partial",
    "OptiPrism.Ingest.C48_other_groups",
    "OptiPrism.Ingest.C48_violated"
   ],
   "note": "Right for the first group only: identify encodes with the dictionaries of group_0 whatever the group, and leaves those of the other groups unchanged."
  },
  {
   "property": "C49",
   "status": "partial",
   "theorems": [
    "OptiPrism.Query.C49_partial",
    "OptiPrism.Query.C49_operators",
    "OptiPrism.Query.C49_neq_all",
    "OptiPrism.Query.C49_filters",
    "OptiPrism.Query.C49_violated"
   ],
   "note": "\"equals\" proved outright, filters of one event are a conjunction; \"not equals\" with two different values selects every row with a value (C49_neq_all), so the full claim is false."
  },
  {
   "property": "C50",
   "status": "partial",
   "theorems": [
    "OptiPrism.Query.C50_partial",
    "OptiPrism.Query.C50_violated",
    "OptiPrism.Query.C50_months_violated"
   ],
   "note": "Exact characterisation for every column unit; false when the start lies between two units of the column (rounded down), and for month counts beyond 32 bits. chrono/chronoutil modelled from their documentation."
  },
  {
   "property": "C51",
   "status": "proved",
   "theorems": [
    "OptiPrism.Query.C51_count",
    "OptiPrism.Query.C51_single",
    "OptiPrism.Query.C51_batching"
   ],
   "note": "Counts per group for every batching, filter and user set."
  },
  {
   "property": "C52",
   "status": "proved",
   "theorems": [
    "OptiPrism.Query.C52_aggregate",
    "OptiPrism.Query.C52_batching"
   ],
   "note": "Sum, min, max, avg, count per group over rationals."
  },
  {
   "property": "C53",
   "status": "partial",
   "theorems": [
    "OptiPrism.Query.C53_partial",
    "OptiPrism.Query.C53_sums",
    "OptiPrism.Query.C53_workers",
    "OptiPrism.Query.C53_avg_violated",
    "OptiPrism.Query.C53_zero_violated"
   ],
   "note": "Sums and counts combine; averages of averages and zero-filled minima and maxima do not."
  },
  {
   "property": "C54",
   "status": "partial",
   "theorems": [
    "OptiPrism.Query.C54_partial",
    "OptiPrism.Query.C54_batching",
    "OptiPrism.Query.C54_filter_violated",
    "OptiPrism.Query.C54_zero_violated",
    "OptiPrism.Query.C54_null_violated"
   ],
   "note": "Without filter and user 0; witnesses for filter, user 0 and NULL users."
  },
  {
   "property": "C55",
   "status": "proved",
   "theorems": [
    "OptiPrism.Query.C55_funnel_monotone",
    "OptiPrism.Query.C55_funnel_final"
   ],
   "note": "Every option, batching and user filter; also for the sums over workers."
  },
  {
   "property": "C56",
   "status": "proved",
   "theorems": [
    "OptiPrism.Query.C56_funnel_sound"
   ],
   "note": "Totals and times from the start count conversions made of disjoint rows of the group."
  },
  {
   "property": "C57",
   "status": "partial",
   "theorems": [
    "OptiPrism.Query.C57_partial",
    "OptiPrism.Query.C57_violated"
   ],
   "note": "Without constants and unique counting and with batches ending in a selected user; violated otherwise."
  },
  {
   "property": "C58",
   "status": "partial",
   "theorems": [
    "OptiPrism.Query.C58_isolation_partial",
    "OptiPrism.Query.C58_enforced_partial",
    "OptiPrism.Query.C58_violated"
   ],
   "note": "If no user starts with an exclusion event; enforced only without step ranges. Violated otherwise."
  },
  {
   "property": "C59",
   "status": "partial",
   "theorems": [
    "OptiPrism.Query.C59_partial",
    "OptiPrism.Query.C59_violated"
   ],
   "note": "Of the evaluation with a user set; the executor passes an empty set for one segment and panics for more."
  },
  {
   "property": "C60",
   "status": "partial",
   "theorems": [
    "OptiPrism.Query.C60_entries",
    "OptiPrism.Query.C60_partial",
    "OptiPrism.Query.C60_violated"
   ],
   "note": "Exact when zero hits do not satisfy the comparison; users without hits are not reported otherwise."
  },
  {
   "property": "C61",
   "status": "partial",
   "theorems": [
    "OptiPrism.Query.C61_partial",
    "OptiPrism.Query.C61_violated"
   ],
   "note": "When every user has a hit for both operands; entries are paired by position otherwise."
  },
  {
   "property": "C62",
   "status": "partial",
   "theorems": [
    "OptiPrism.Query.C62_partial",
    "OptiPrism.Query.C62_violated"
   ],
   "note": "Columns in schema order without NULL; another order swaps the values, NULL is an error."
  },
  {
   "property": "C63",
   "status": "partial",
   "theorems": [
    "OptiPrism.Query.C63_partial",
    "OptiPrism.Query.C63_violated"
   ],
   "note": "Hash without collisions and at most 2048 groups; beyond that the single buffer extension can panic."
  },
  {
   "property": "C64",
   "status": "partial",
   "theorems": [
    "OptiPrism.Query.C64_at_most_partial",
    "OptiPrism.Query.C64_single_partial",
    "OptiPrism.Query.C64_violated"
   ],
   "note": "Per batch; exact for one column. With several columns dropped rows use up limits, and each batch counts anew."
  },
  {
   "property": "C65",
   "status": "partial",
   "theorems": [
    "OptiPrism.Query.C65_partial",
    "OptiPrism.Query.C65_schema",
    "OptiPrism.Query.C65_violated"
   ],
   "note": "Missing columns nullable, label not a column of a stream."
  },
  {
   "property": "C66",
   "status": "partial",
   "theorems": [
    "OptiPrism.Query.C66_trunc",
    "OptiPrism.Query.C66_idempotent",
    "OptiPrism.Query.C66_monotone",
    "OptiPrism.Query.C66_columns",
    "OptiPrism.Query.C66_funnel_partial",
    "OptiPrism.Query.C66_funnel_month_partial",
    "OptiPrism.Query.C66_funnel_violated"
   ],
   "note": "Truncation and query columns proved for all units; the buckets of funnels are right by hour, day, week and miss months and years."
  },
  {
   "property": "C67",
   "status": "proved",
   "theorems": [
    "OptiPrism.Storage.C67_newest_log",
    "OptiPrism.Storage.C67_reopen"
   ],
   "note": ""
  },
  {
   "property": "C68",
   "status": "partial",
   "theorems": [
    "OptiPrism.Storage.C68_partial",
    "OptiPrism.Storage.C68_violated",
    "OptiPrism.Storage.C68_leaked_file_stays"
   ],
   "note": "False for scans that are dropped or fail (there is no Drop implementation); proved for scans read to the end."
  },
  {
   "property": "C69",
   "status": "partial",
   "theorems": [
    "OptiPrism.Meta.C69_list_exact",
    "OptiPrism.Meta.C69_projects_partial",
    "OptiPrism.Meta.C69_teams_partial",
    "OptiPrism.Meta.C69_teams_violated"
   ],
   "note": "Exact for events, accounts, organizations, custom events, dashboards, reports, backups, properties; for projects in histories that keep names and tokens apart; false for teams, of which at most one is listed."
  },
  {
   "property": "C70",
   "status": "partial",
   "theorems": [
    "OptiPrism.Meta.C70_partial",
    "OptiPrism.Meta.C70_violated"
   ],
   "note": "Holds in executions without stale reads at commit; otherwise two overlapping creates give two live teams one name."
  },
  {
   "property": "C71",
   "status": "proved",
   "theorems": [
    "OptiPrism.Platform.C71_reader",
    "OptiPrism.Platform.C71_delete",
    "OptiPrism.Platform.C71_root",
    "OptiPrism.Platform.C71_no_role",
    "OptiPrism.Platform.C71_organization",
    "OptiPrism.Platform.C71_project"
   ],
   "note": "over the table of all endpoints of platform/src and the permission each asks for"
  },
  {
   "property": "C72",
   "status": "partial",
   "theorems": [
    "OptiPrism.Ingest.C72_partial",
    "OptiPrism.Ingest.C72_dates",
    "OptiPrism.Ingest.C72_violated"
   ],
   "note": "Strings, numbers and booleans are convertible; a date can never be stored in any property."
  },
  {
   "property": "C73",
   "status": "partial",
   "theorems": [
    "OptiPrism.Ingest.C73_partial",
    "OptiPrism.Ingest.C73_exact",
    "OptiPrism.Ingest.C73_stopped",
    "OptiPrism.Ingest.C73_violated"
   ],
   "note": "Exactly which requests go unanswered is characterised; a panic poisons the mutex and stops all later requests of the kind (witness with ordinary requests)."
  },
  {
   "property": "C74",
   "status": "proved",
   "theorems": [
    "OptiPrism.Ingest.C74_rows"
   ],
   "note": "Event cells, exactly one begin row iff no session is open, earlier rows only NULL-extended. The begin row cells are stated for requests without campaign (UTM properties are client-named)."
  },
  {
   "property": "C75",
   "status": "partial",
   "theorems": [
    "OptiPrism.Ingest.C75_partial",
    "OptiPrism.Ingest.C75_violated",
    "OptiPrism.Ingest.C75_never_begun"
   ],
   "note": "Holds for accepted requests; a refused request opens the session without its row and no later request stores it."
  },
  {
   "property": "C76",
   "status": "proved",
   "theorems": [
    "OptiPrism.Ingest.C76_system_columns",
    "OptiPrism.Ingest.C74_rows"
   ],
   "note": "For the event row."
  },
  {
   "property": "C77",
   "status": "partial",
   "theorems": [
    "OptiPrism.Ingest.C77_partial",
    "OptiPrism.Ingest.C77_violated"
   ],
   "note": "Holds after histories in which only event creation writes to the dictionary of the event column and events are neither deleted nor renamed; a client property named event breaks it for all later events."
  },
  {
   "property": "C78",
   "status": "partial",
   "theorems": [
    "OptiPrism.Ingest.C78_partial",
    "OptiPrism.Ingest.C78_swapped",
    "OptiPrism.Ingest.C78_violated"
   ],
   "note": "Requests with one id are stable; with both ids the roles of the two ids are swapped."
  },
  {
   "property": "C79",
   "status": "proved",
   "theorems": [
    "OptiPrism.Ingest.C79_confined",
    "OptiPrism.Ingest.C79_history"
   ],
   "note": "For every request and failure point; lifted to sequences with poisoned locks."
  },
  {
   "property": "C80",
   "status": "partial",
   "theorems": [
    "OptiPrism.Query.C80_partial",
    "OptiPrism.Query.C80_violated"
   ],
   "note": "Names and custom events of any depth; direct references are cut to 16 bits."
  },
  {
   "property": "C81",
   "status": "partial",
   "theorems": [
    "OptiPrism.Query.C81_partial",
    "OptiPrism.Query.C81_violated"
   ],
   "note": "For known strings within the range of the dictionary type; an unknown string fails the whole query."
  },
  {
   "property": "C82",
   "status": "partial",
   "theorems": [
    "OptiPrism.Query.C82_partial",
    "OptiPrism.Query.C82_null_violated"
   ],
   "note": "Without NULLs, which are counted as 0."
  },
  {
   "property": "C83",
   "status": "partial",
   "theorems": [
    "OptiPrism.Query.C83_partial",
    "OptiPrism.Query.C83_violated"
   ],
   "note": "All segments but the last; the last is dropped, a single one ignored, and NULL entries panic."
  },
  {
   "property": "C84",
   "status": "partial",
   "theorems": [
    "OptiPrism.Query.C84_partial",
    "OptiPrism.Query.C84_violated"
   ],
   "note": "Completed conversions in a single batch; violated for retries and across batches."
  },
  {
   "property": "C85",
   "status": "partial",
   "theorems": [
    "OptiPrism.Query.C85_partial",
    "OptiPrism.Query.C85_violated"
   ],
   "note": "If all rows of the user lie within the window, exact order, no exclusions; the greedy attempt misses others."
  },
  {
   "property": "C86",
   "status": "partial",
   "theorems": [
    "OptiPrism.Query.C86_partial",
    "OptiPrism.Query.C86_violated"
   ],
   "note": "Conversion ratio of one worker; averages are multiplied by 100 and combined ratios averaged."
  },
  {
   "property": "C87",
   "status": "partial",
   "theorems": [
    "OptiPrism.Query.C87_partial",
    "OptiPrism.Query.C87_violated"
   ],
   "note": "Within the limits of C62 and C63; the limit is on the number of groups, not of rows."
  },
  {
   "property": "C88",
   "status": "proved",
   "theorems": [
    "OptiPrism.Query.C88_rename"
   ],
   "note": ""
  },
  {
   "property": "C89",
   "status": "proved",
   "theorems": [
    "OptiPrism.Meta.C89_permanent",
    "OptiPrism.Meta.C89_injective",
    "OptiPrism.Meta.C89_limit"
   ],
   "note": ""
  },
  {
   "property": "C90",
   "status": "proved",
   "theorems": [
    "OptiPrism.Meta.C90_update",
    "OptiPrism.Meta.C90_repeated_violated"
   ],
   "note": "The properties of one request are different because the request carries a map; C90_repeated_violated shows what would happen otherwise."
  },
  {
   "property": "C91",
   "status": "partial",
   "theorems": [
    "OptiPrism.Storage.C91_partial",
    "OptiPrism.Storage.C91_rows_lost",
    "OptiPrism.Storage.C91_violated"
   ],
   "note": "Exact: the rows come back after a crash while merging and after one while deleting if no rename is left; never with a torn manifest; not while a recorded part waits for its rename, where the first garbage collection deletes the only copy (C91_rows_lost). For rounds which choose no part twice (C17)."
  },
  {
   "property": "C92",
   "status": "partial",
   "theorems": [
    "OptiPrism.Meta.C92_set",
    "OptiPrism.Meta.C92_partial",
    "OptiPrism.Meta.C92_never_listed",
    "OptiPrism.Meta.C92_violated"
   ],
   "note": "The answers are right (each property once, old ones first), but events are stored without the lists: no attached property is ever read, detaching is always refused."
  },
  {
   "property": "C93",
   "status": "partial",
   "theorems": [
    "OptiPrism.Meta.C93_shelf",
    "OptiPrism.Meta.C93_opens_partial",
    "OptiPrism.Meta.C93_private",
    "OptiPrism.Meta.C93_deleted",
    "OptiPrism.Meta.C93_violated"
   ],
   "note": "A refinement to a shelf of bookmarks for all histories. Identifiers are drawn at random and written without a check, so a bookmark is lost if the same account draws its identifier again."
  },
  {
   "property": "C94",
   "status": "proved",
   "theorems": [
    "OptiPrism.Storage.PMerge.C94_merge",
    "OptiPrism.Storage.PMerge.C94_isMerge",
    "OptiPrism.Storage.PMerge.C94_stats"
   ],
   "note": "Tables which do not replace, keys of one to three integer columns; C94_isMerge discharges the assumption on the merger made by C16, C17, C18 and C91."
  },
  {
   "property": "C95",
   "status": "partial",
   "theorems": [
    "OptiPrism.Storage.PMerge.C95_partial",
    "OptiPrism.Storage.PMerge.C95_violated",
    "OptiPrism.Storage.PMerge.C95_data_violated",
    "OptiPrism.Storage.PMerge.C95_order_violated"
   ],
   "note": "Holds if no two rows share the first key column; otherwise rows are lost, values mixed, order broken."
  },
  {
   "property": "C96",
   "status": "partial",
   "theorems": [
    "OptiPrism.Storage.C96_partial",
    "OptiPrism.Storage.C96_violated",
    "OptiPrism.Storage.C96_lost_for_good"
   ],
   "note": "All interleavings of inserts, flushes, scans, garbage collection and compactor steps, except that the garbage collector does not run between the two halves of a deletion. If it does, the compactor dies with renames outstanding and rows are lost."
  },
  {
   "property": "C97",
   "status": "partial",
   "theorems": [
    "OptiPrism.Storage.C97_partial",
    "OptiPrism.Storage.C97_violated_delete",
    "OptiPrism.Storage.C97_violated_rename"
   ],
   "note": "Exact if the compactor executes no file operation while the scan opens its files; otherwise the scan fails."
  },
  {
   "property": "C98",
   "status": "proved",
   "theorems": [
    "OptiPrism.Platform.C98_origin",
    "OptiPrism.Platform.C98_authentic"
   ],
   "note": "Cryptography is symbolic: callers present only tokens they were given, a token verifies under its own key."
  },
  {
   "property": "C99",
   "status": "proved",
   "theorems": [
    "OptiPrism.Platform.C99_password",
    "OptiPrism.Platform.C99_email",
    "OptiPrism.Platform.C99_password_shown",
    "OptiPrism.Platform.C99_login",
    "OptiPrism.Platform.C99_set_email_unchecked"
   ],
   "note": "C99_login assumes that a hash verifies for its own password only. C99_set_email_unchecked records that set_email does not validate the address."
  }
 ]
}