import Verif.Model.Literal

/-!
# The variables a MySQL client can ask for

plugins/MySQL.cpp:713-1015 and MySQL.h:122, 132.  Generated from the source; `version` is the build's `VERSION`.
-/

namespace Bedrock.MySQL
open Bedrock Bedrock.Text

/-- `mysqlVersion`, MySQL.h:122. -/
def mysqlVersion : Bytes := b!"5.1.73-log"

/-- `g_MySQLVariables` before `version_comment`, MySQL.cpp:713-1009. -/
def variablesBefore : List (Bytes × Bytes) := [
  (b!"auto_increment_increment", b!"1"),
  (b!"auto_increment_offset", b!"1"),
  (b!"autocommit", b!"ON"),
  (b!"automatic_sp_privileges", b!"ON"),
  (b!"back_log", b!"50"),
  (b!"basedir", b!"/rdsdbbin/mysql-5.1.73a.R1/"),
  (b!"big_tables", b!"OFF"),
  (b!"binlog_cache_size", b!"32768"),
  (b!"binlog_direct_non_transactional_updates", b!"OFF"),
  (b!"binlog_format", b!"MIXED"),
  (b!"bulk_insert_buffer_size", b!"8388608"),
  (b!"character_set_client", b!"latin1"),
  (b!"character_set_connection", b!"latin1"),
  (b!"character_set_database", b!"utf8"),
  (b!"character_set_filesystem", b!"binary"),
  (b!"character_set_results", b!"latin1"),
  (b!"character_set_server", b!"latin1"),
  (b!"character_set_system", b!"utf8"),
  (b!"character_sets_dir", b!"/rdsdbbin/mysql-5.1.73a.R1/share/mysql/charsets/"),
  (b!"collation_connection", b!"latin1_swedish_ci"),
  (b!"collation_database", b!"utf8_unicode_ci"),
  (b!"collation_server", b!"latin1_swedish_ci"),
  (b!"completion_type", b!"0"),
  (b!"concurrent_insert", b!"1"),
  (b!"connect_timeout", b!"15"),
  (b!"datadir", b!"/rdsdbdata/db/"),
  (b!"date_format", b!"%Y-%m-%d"),
  (b!"datetime_format", b!"%Y-%m-%d %H:%i:%s"),
  (b!"default_week_format", b!"0"),
  (b!"delay_key_write", b!"ON"),
  (b!"delayed_insert_limit", b!"100"),
  (b!"delayed_insert_timeout", b!"300"),
  (b!"delayed_queue_size", b!"1000"),
  (b!"div_precision_increment", b!"4"),
  (b!"engine_condition_pushdown", b!"ON"),
  (b!"error_count", b!"0"),
  (b!"event_scheduler", b!"OFF"),
  (b!"expire_logs_days", b!"0"),
  (b!"flush", b!"OFF"),
  (b!"flush_time", b!"0"),
  (b!"foreign_key_checks", b!"ON"),
  (b!"ft_boolean_syntax", b!"+ -><()~*:&|"),
  (b!"ft_max_word_len", b!"84"),
  (b!"ft_min_word_len", b!"4"),
  (b!"ft_query_expansion_limit", b!"20"),
  (b!"ft_stopword_file", b!"(built-in)"),
  (b!"general_log", b!"OFF"),
  (b!"general_log_file", b!"/rdsdbdata/log/general/mysql-general.log"),
  (b!"group_concat_max_len", b!"1024"),
  (b!"have_community_features", b!"YES"),
  (b!"have_compress", b!"YES"),
  (b!"have_crypt", b!"YES"),
  (b!"have_csv", b!"YES"),
  (b!"have_dynamic_loading", b!"YES"),
  (b!"have_geometry", b!"YES"),
  (b!"have_innodb", b!"YES"),
  (b!"have_ndbcluster", b!"NO"),
  (b!"have_openssl", b!"YES"),
  (b!"have_partitioning", b!"YES"),
  (b!"have_query_cache", b!"YES"),
  (b!"have_rtree_keys", b!"YES"),
  (b!"have_ssl", b!"YES"),
  (b!"have_symlink", b!"YES"),
  (b!"hostname", b!"ip-10-178-20-210"),
  (b!"identity", b!"0"),
  (b!"ignore_builtin_innodb", b!"ON"),
  (b!"init_connect", b!""),
  (b!"init_file", b!""),
  (b!"init_slave", b!""),
  (b!"innodb_adaptive_flushing", b!"ON"),
  (b!"innodb_adaptive_hash_index", b!"ON"),
  (b!"innodb_additional_mem_pool_size", b!"2097152"),
  (b!"innodb_autoextend_increment", b!"8"),
  (b!"innodb_autoinc_lock_mode", b!"1"),
  (b!"innodb_buffer_pool_size", b!"11674845184"),
  (b!"innodb_change_buffering", b!"inserts"),
  (b!"innodb_checksums", b!"ON"),
  (b!"innodb_commit_concurrency", b!"0"),
  (b!"innodb_concurrency_tickets", b!"500"),
  (b!"innodb_data_file_path", b!"ibdata1:10M:autoextend"),
  (b!"innodb_data_home_dir", b!"/rdsdbdata/db/innodb"),
  (b!"innodb_doublewrite", b!"ON"),
  (b!"innodb_fast_shutdown", b!"1"),
  (b!"innodb_file_format", b!"Antelope"),
  (b!"innodb_file_format_check", b!"Barracuda"),
  (b!"innodb_file_per_table", b!"ON"),
  (b!"innodb_flush_log_at_trx_commit", b!"0"),
  (b!"innodb_flush_method", b!"O_DIRECT"),
  (b!"innodb_force_recovery", b!"0"),
  (b!"innodb_io_capacity", b!"200"),
  (b!"innodb_lock_wait_timeout", b!"50"),
  (b!"innodb_locks_unsafe_for_binlog", b!"OFF"),
  (b!"innodb_log_buffer_size", b!"8388608"),
  (b!"innodb_log_file_size", b!"134217728"),
  (b!"innodb_log_files_in_group", b!"2"),
  (b!"innodb_log_group_home_dir", b!"/rdsdbdata/log/innodb"),
  (b!"innodb_max_dirty_pages_pct", b!"75"),
  (b!"innodb_max_purge_lag", b!"0"),
  (b!"innodb_mirrored_log_groups", b!"1"),
  (b!"innodb_old_blocks_pct", b!"37"),
  (b!"innodb_old_blocks_time", b!"0"),
  (b!"innodb_open_files", b!"300"),
  (b!"innodb_random_read_ahead", b!"OFF"),
  (b!"innodb_read_ahead_threshold", b!"56"),
  (b!"innodb_read_io_threads", b!"4"),
  (b!"innodb_replication_delay", b!"0"),
  (b!"innodb_rollback_on_timeout", b!"OFF"),
  (b!"innodb_spin_wait_delay", b!"6"),
  (b!"innodb_stats_method", b!"nulls_equal"),
  (b!"innodb_stats_on_metadata", b!"ON"),
  (b!"innodb_stats_sample_pages", b!"8"),
  (b!"innodb_strict_mode", b!"OFF"),
  (b!"innodb_support_xa", b!"ON"),
  (b!"innodb_sync_spin_loops", b!"30"),
  (b!"innodb_table_locks", b!"ON"),
  (b!"innodb_thread_concurrency", b!"0"),
  (b!"innodb_thread_sleep_delay", b!"10000"),
  (b!"innodb_use_sys_malloc", b!"ON"),
  (b!"innodb_version", b!"5.1.73"),
  (b!"innodb_write_io_threads", b!"4"),
  (b!"insert_id", b!"0"),
  (b!"interactive_timeout", b!"28800"),
  (b!"join_buffer_size", b!"131072"),
  (b!"keep_files_on_create", b!"OFF"),
  (b!"key_buffer_size", b!"16777216"),
  (b!"key_cache_age_threshold", b!"300"),
  (b!"key_cache_block_size", b!"1024"),
  (b!"key_cache_division_limit", b!"100"),
  (b!"language", b!"/rdsdbbin/mysql/share/mysql/english/"),
  (b!"large_files_support", b!"ON"),
  (b!"large_page_size", b!"0"),
  (b!"large_pages", b!"OFF"),
  (b!"last_insert_id", b!"0"),
  (b!"lc_time_names", b!"en_US"),
  (b!"license", b!"GPL"),
  (b!"local_infile", b!"ON"),
  (b!"locked_in_memory", b!"OFF"),
  (b!"log", b!"OFF"),
  (b!"log_bin", b!"ON"),
  (b!"log_bin_trust_function_creators", b!"ON"),
  (b!"log_bin_trust_routine_creators", b!"ON"),
  (b!"log_error", b!"/rdsdbdata/log/error/mysql-error.log"),
  (b!"log_output", b!"TABLE"),
  (b!"log_queries_not_using_indexes", b!"OFF"),
  (b!"log_slave_updates", b!"OFF"),
  (b!"log_slow_queries", b!"ON"),
  (b!"log_warnings", b!"1"),
  (b!"long_query_time", b!"10.000000"),
  (b!"low_priority_updates", b!"OFF"),
  (b!"lower_case_file_system", b!"OFF"),
  (b!"lower_case_table_names", b!"0"),
  (b!"max_allowed_packet", b!"5242880"),
  (b!"max_binlog_cache_size", b!"18446744073709547520"),
  (b!"max_binlog_size", b!"134217728"),
  (b!"max_connect_errors", b!"1000000000"),
  (b!"max_connections", b!"1500"),
  (b!"max_delayed_threads", b!"20"),
  (b!"max_error_count", b!"64"),
  (b!"max_heap_table_size", b!"16777216"),
  (b!"max_insert_delayed_threads", b!"20"),
  (b!"max_join_size", b!"18446744073709551615"),
  (b!"max_length_for_sort_data", b!"1024"),
  (b!"max_long_data_size", b!"5242880"),
  (b!"max_prepared_stmt_count", b!"16382"),
  (b!"max_relay_log_size", b!"0"),
  (b!"max_seeks_for_key", b!"18446744073709551615"),
  (b!"max_sort_length", b!"1024"),
  (b!"max_sp_recursion_depth", b!"0"),
  (b!"max_tmp_tables", b!"32"),
  (b!"max_user_connections", b!"600"),
  (b!"max_write_lock_count", b!"18446744073709551615"),
  (b!"min_examined_row_limit", b!"0"),
  (b!"multi_range_count", b!"256"),
  (b!"myisam_data_pointer_size", b!"6"),
  (b!"myisam_max_sort_file_size", b!"9223372036853727232"),
  (b!"myisam_mmap_size", b!"18446744073709551615"),
  (b!"myisam_recover_options", b!"OFF"),
  (b!"myisam_repair_threads", b!"1"),
  (b!"myisam_sort_buffer_size", b!"8388608"),
  (b!"myisam_stats_method", b!"nulls_unequal"),
  (b!"myisam_use_mmap", b!"OFF"),
  (b!"net_buffer_length", b!"16384"),
  (b!"net_read_timeout", b!"30"),
  (b!"net_retry_count", b!"10"),
  (b!"net_write_timeout", b!"60"),
  (b!"new", b!"OFF"),
  (b!"old", b!"OFF"),
  (b!"old_alter_table", b!"OFF"),
  (b!"old_passwords", b!"OFF"),
  (b!"open_files_limit", b!"65535"),
  (b!"optimizer_prune_level", b!"1"),
  (b!"optimizer_search_depth", b!"62"),
  (b!"optimizer_switch",
    b!"index_merge=on,index_merge_union=on,index_merge_sort_union=on,index_merge_intersection=on"),
  (b!"pid_file", b!"/rdsdbdata/log/mysql-3306.pid"),
  (b!"plugin_dir", b!"/rdsdbbin/mysql/lib/mysql/plugin"),
  (b!"port", b!"3306"),
  (b!"preload_buffer_size", b!"32768"),
  (b!"profiling", b!"OFF"),
  (b!"profiling_history_size", b!"15"),
  (b!"protocol_version", b!"10"),
  (b!"pseudo_thread_id", b!"26810995"),
  (b!"query_alloc_block_size", b!"8192"),
  (b!"query_cache_limit", b!"1048576"),
  (b!"query_cache_min_res_unit", b!"4096"),
  (b!"query_cache_size", b!"0"),
  (b!"query_cache_type", b!"ON"),
  (b!"query_cache_wlock_invalidate", b!"OFF"),
  (b!"query_prealloc_size", b!"8192"),
  (b!"rand_seed1", b!""),
  (b!"rand_seed2", b!""),
  (b!"range_alloc_block_size", b!"4096"),
  (b!"read_buffer_size", b!"262144"),
  (b!"read_only", b!"OFF"),
  (b!"read_rnd_buffer_size", b!"524288"),
  (b!"relay_log", b!"/rdsdbdata/log/relaylog/relaylog"),
  (b!"relay_log_index", b!""),
  (b!"relay_log_info_file", b!"relay-log.info"),
  (b!"relay_log_purge", b!"ON"),
  (b!"relay_log_space_limit", b!"0"),
  (b!"report_host", b!""),
  (b!"report_password", b!""),
  (b!"report_port", b!"3306"),
  (b!"report_user", b!""),
  (b!"rpl_recovery_rank", b!"0"),
  (b!"secure_auth", b!"OFF"),
  (b!"secure_file_priv", b!"/tmp/"),
  (b!"server_id", b!"973870556"),
  (b!"skip_external_locking", b!"ON"),
  (b!"skip_name_resolve", b!"OFF"),
  (b!"skip_networking", b!"OFF"),
  (b!"skip_show_database", b!"OFF"),
  (b!"slave_compressed_protocol", b!"OFF"),
  (b!"slave_exec_mode", b!"STRICT"),
  (b!"slave_load_tmpdir", b!"/rdsdbdata/tmp"),
  (b!"slave_max_allowed_packet", b!"1073741824"),
  (b!"slave_net_timeout", b!"3600"),
  (b!"slave_skip_errors", b!"OFF"),
  (b!"slave_transaction_retries", b!"10"),
  (b!"slow_launch_time", b!"2"),
  (b!"slow_query_log", b!"ON"),
  (b!"slow_query_log_file", b!"/rdsdbdata/log/slowquery/mysql-slowquery.log"),
  (b!"socket", b!"/tmp/mysql.sock"),
  (b!"sort_buffer_size", b!"2097144"),
  (b!"sql_auto_is_null", b!"ON"),
  (b!"sql_big_selects", b!"ON"),
  (b!"sql_big_tables", b!"OFF"),
  (b!"sql_buffer_result", b!"OFF"),
  (b!"sql_log_bin", b!"ON"),
  (b!"sql_log_off", b!"OFF"),
  (b!"sql_log_update", b!"ON"),
  (b!"sql_low_priority_updates", b!"OFF"),
  (b!"sql_max_join_size", b!"18446744073709551615"),
  (b!"sql_mode", b!""),
  (b!"sql_notes", b!"ON"),
  (b!"sql_quote_show_create", b!"ON"),
  (b!"sql_safe_updates", b!"OFF"),
  (b!"sql_select_limit", b!"18446744073709551615"),
  (b!"sql_slave_skip_counter", b!""),
  (b!"sql_warnings", b!"OFF"),
  (b!"ssl_ca", b!"/rdsdbdata/rds-metadata/ca-cert.pem"),
  (b!"ssl_capath", b!""),
  (b!"ssl_cert", b!"/rdsdbdata/rds-metadata/server-cert.pem"),
  (b!"ssl_cipher", (b!"EXP1024-RC4-SHA:EXP1024-DES-CBC-SHA:AES256-SHA:AES128-SHA:DES-CBC3-SHA:DES-CBC-SHA:EXP-DES-CBC-"
    ++ b!"SHA:EXP-RC2-CBC-MD5:RC4-SHA:RC4-MD5:EXP-RC4-MD5:NULL-SHA:NULL-MD5:DES-CBC3-MD5:DES-CBC-MD5:EXP-"
    ++ b!"RC2-CBC-MD5:RC2-CBC-MD5:EXP-RC4-MD5:RC4-MD5:KRB5-DES-CBC3-MD5:KRB5-DES-CBC3-SHA:ADH-DES-CBC3-SH"
    ++ b!"A:EDH-RSA-DES-CBC3-SHA:EDH-DSS-DES-CBC3-SHA:ADH-AES256-SHA:DHE-RSA-AES256-SHA:DHE-DSS-AES256-SH"
    ++ b!"A:ADH-AES128-SHA:DHE-RSA-AES128-SHA:DHE-DSS-AES128-SHA:EXP-KRB5-RC4-MD5:EXP-KRB5-RC2-CBC-MD5:EX"
    ++ b!"P-KRB5-DES-CBC-MD5:KRB5-RC4-MD5:KRB5-DES-CBC-MD5:ADH-RC4-MD5:EXP-ADH-RC4-MD5:DHE-DSS-RC4-SHA:EX"
    ++ b!"P1024-DHE-DSS-RC4-SHA:EXP1024-DHE-DSS-DES-CBC-SHA:EXP-KRB5-RC4-SHA:EXP-KRB5-RC2-CBC-SHA:EXP-KRB"
    ++ b!"5-DES-CBC-SHA:KRB5-RC4-SHA:KRB5-DES-CBC-SHA:ADH-DES-CBC-SHA:EXP-ADH-DES-CBC-SHA:EDH-RSA-DES-CBC"
    ++ b!"-SHA:EXP-EDH-RSA-DES-CBC-SHA:EDH-DSS-DES-CBC-SHA:EXP-EDH-DSS-DES-CBC-SHA")),
  (b!"ssl_key", b!"/rdsdbdata/rds-metadata/server-key.pem"),
  (b!"storage_engine", b!"InnoDB"),
  (b!"sync_binlog", b!"0"),
  (b!"sync_frm", b!"ON"),
  (b!"system_time_zone", b!"UTC"),
  (b!"table_definition_cache", b!"256"),
  (b!"table_lock_wait_timeout", b!"50"),
  (b!"table_open_cache", b!"96"),
  (b!"table_type", b!"InnoDB"),
  (b!"thread_cache_size", b!"0"),
  (b!"thread_handling", b!"one-thread-per-connection"),
  (b!"thread_stack", b!"196608"),
  (b!"time_format", b!"%H:%i:%s"),
  (b!"time_zone", b!"UTC"),
  (b!"timed_mutexes", b!"OFF"),
  (b!"timestamp", b!"1454813864"),
  (b!"tmp_table_size", b!"16777216"),
  (b!"tmpdir", b!"/rdsdbdata/tmp"),
  (b!"transaction_alloc_block_size", b!"8192"),
  (b!"transaction_prealloc_size", b!"4096"),
  (b!"tx_isolation", b!"REPEATABLE-READ"),
  (b!"unique_checks", b!"ON"),
  (b!"updatable_views_with_limit", b!"YES"),
  (b!"version", mysqlVersion)]

/-- `g_MySQLVariables` after `version_comment`, MySQL.cpp:1011-1014. -/
def variablesAfter : List (Bytes × Bytes) := [
  (b!"version_compile_machine", b!"x86_64"),
  (b!"version_compile_os", b!"unknown-linux-gnu"),
  (b!"wait_timeout", b!"28800"),
  (b!"warning_count", b!"0")]

/-- `g_MySQLVariables`, MySQL.cpp:713-1015: names and values, 292 of them as MySQL.h:132 says. -/
def variables (version : Bytes) : List (Bytes × Bytes) :=
  variablesBefore ++ (b!"version_comment", version) :: variablesAfter

end Bedrock.MySQL
