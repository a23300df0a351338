{
 "claims": [
  {
   "property": "C01",
   "status": "proved",
   "theorems": [
    "Bbn.C01_index_outcomes_bijection",
    "Bbn.C01_index_injective"
   ],
   "note": ""
  },
  {
   "property": "C02",
   "status": "proved",
   "theorems": [
    "Bbn.C02_odometer_row_major",
    "Bbn.C02_data_layout"
   ],
   "note": ""
  },
  {
   "property": "C03",
   "status": "proved",
   "theorems": [
    "Bbn.C03_set_get"
   ],
   "note": ""
  },
  {
   "property": "C04",
   "status": "proved",
   "theorems": [
    "Bbn.C04_indexWithNoData"
   ],
   "note": ""
  },
  {
   "property": "C05",
   "status": "proved",
   "theorems": [
    "Bbn.C05_row"
   ],
   "note": ""
  },
  {
   "property": "C06",
   "status": "proved",
   "theorems": [
    "Bbn.C06_product_pointwise"
   ],
   "note": ""
  },
  {
   "property": "C07",
   "status": "proved",
   "theorems": [
    "Bbn.C07_product_perm",
    "Bbn.C07_product_assoc"
   ],
   "note": ""
  },
  {
   "property": "C08",
   "status": "proved",
   "theorems": [
    "Bbn.C08_sum_pointwise"
   ],
   "note": ""
  },
  {
   "property": "C09",
   "status": "proved",
   "theorems": [
    "Bbn.C09_sumOut"
   ],
   "note": ""
  },
  {
   "property": "C10",
   "status": "proved",
   "theorems": [
    "Bbn.C10_sumOut_order"
   ],
   "note": ""
  },
  {
   "property": "C11",
   "status": "proved",
   "theorems": [
    "Bbn.C11_restrict"
   ],
   "note": ""
  },
  {
   "property": "C12",
   "status": "proved",
   "theorems": [
    "Bbn.C12_restrict_order",
    "Bbn.C12_restrict_product",
    "Bbn.C12_restrict_sumOut"
   ],
   "note": ""
  },
  {
   "property": "C13",
   "status": "proved",
   "theorems": [
    "Bbn.C13_rearrange",
    "Bbn.C13_rearrange_roundtrip"
   ],
   "note": ""
  },
  {
   "property": "C14",
   "status": "proved",
   "theorems": [
    "Bbn.C14_marginal"
   ],
   "note": ""
  },
  {
   "property": "C15",
   "status": "proved",
   "theorems": [
    "Bbn.C15_normalize"
   ],
   "note": ""
  },
  {
   "property": "C16",
   "status": "proved",
   "theorems": [
    "Bbn.C16_normalizeFor"
   ],
   "note": ""
  },
  {
   "property": "C17",
   "status": "proved",
   "theorems": [
    "Bbn.C17_normalizeUtility"
   ],
   "note": ""
  },
  {
   "property": "C18",
   "status": "proved",
   "theorems": [
    "Bbn.C18_policy"
   ],
   "note": ""
  },
  {
   "property": "C19",
   "status": "proved",
   "theorems": [
    "Bbn.C19_ids_unique"
   ],
   "note": ""
  },
  {
   "property": "C20",
   "status": "proved",
   "theorems": [
    "Bbn.C20_index_calls",
    "Bbn.C20_createFactor",
    "Bbn.C20_restrict",
    "Bbn.C20_variable_calls"
   ],
   "note": ""
  },
  {
   "property": "C21",
   "status": "partial",
   "theorems": [
    "Bbn.C21_reused_id_refuted",
    "Bbn.C21_distinct_ids_partial"
   ],
   "note": "The property fails: the ID map is never filled, so a reused ID is accepted (refuted). Proved instead: distinct IDs given by the caller stay distinct."
  },
  {
   "property": "C22",
   "status": "partial",
   "theorems": [
    "Bbn.C22_get_out_of_range_refuted",
    "Bbn.C22_get_out_of_range_partial"
   ],
   "note": "The property fails: only the flat position is checked (refuted). Proved instead: wrong counts, flat positions outside the data, and an out-of-range first index panic."
  },
  {
   "property": "C23",
   "status": "proved",
   "theorems": [
    "Bbn.C23_solveQuery_exact"
   ],
   "note": ""
  },
  {
   "property": "C24",
   "status": "proved",
   "theorems": [
    "Bbn.C24_elimination_order",
    "Bbn.C24_same_values",
    "Bbn.C24_same_utility"
   ],
   "note": ""
  },
  {
   "property": "C25",
   "status": "proved",
   "theorems": [
    "Bbn.C25_solveUtility_total"
   ],
   "note": ""
  },
  {
   "property": "C26",
   "status": "proved",
   "theorems": [
    "Bbn.C26_solveUtility_single"
   ],
   "note": ""
  },
  {
   "property": "C27",
   "status": "proved",
   "theorems": [
    "Bbn.C27_total_is_weighted_sum"
   ],
   "note": ""
  },
  {
   "property": "C28",
   "status": "proved",
   "theorems": [
    "Bbn.C28_order",
    "Bbn.C28_order_unique",
    "Bbn.C28_solved"
   ],
   "note": ""
  },
  {
   "property": "C29",
   "status": "proved",
   "theorems": [
    "Bbn.C29_best_response"
   ],
   "note": "The theorem asks that the decision is linked to a utility table by variables that are summed out."
  },
  {
   "property": "C30",
   "status": "proved",
   "theorems": [
    "Bbn.C30_single_optimal"
   ],
   "note": "The theorem asks that the decision is linked to a utility table by variables that are summed out."
  },
  {
   "property": "C31",
   "status": "proved",
   "theorems": [
    "Bbn.C31_solveQuery_posterior",
    "Bbn.C31_bayesian"
   ],
   "note": ""
  },
  {
   "property": "C32",
   "status": "proved",
   "theorems": [
    "Bbn.C32_impossible",
    "Bbn.C32_possible"
   ],
   "note": ""
  },
  {
   "property": "C33",
   "status": "proved",
   "theorems": [
    "Bbn.C33_distributions"
   ],
   "note": ""
  },
  {
   "property": "C34",
   "status": "proved",
   "theorems": [
    "Bbn.C34_scale_row",
    "Bbn.C34_nonneg_rows"
   ],
   "note": ""
  },
  {
   "property": "C35",
   "status": "partial",
   "theorems": [
    "Bbn.C35_new_partial",
    "Bbn.C35_new_result",
    "Bbn.C35_unknown_parent_refuted",
    "Bbn.C35_no_table_refuted",
    "Bbn.C35_new_valid"
   ],
   "note": "The property fails: parents in tables of unknown variables are not checked, and a utility variable without a table makes New panic (both refuted). Proved instead: the exact condition for all other inputs, what New returns, and that well-formed input is accepted."
  },
  {
   "property": "C36",
   "status": "proved",
   "theorems": [
    "Bbn.C36_unknown_names"
   ],
   "note": ""
  },
  {
   "property": "C37",
   "status": "partial",
   "theorems": [
    "Bbn.C37_query_in_evidence_refuted",
    "Bbn.C37_disjoint_partial"
   ],
   "note": "The property fails: a query variable that is also evidence makes SolveQuery panic (refuted). Proved instead: disjoint queries never do so."
  },
  {
   "property": "C38",
   "status": "proved",
   "theorems": [
    "Bbn.C38_queries_only_read"
   ],
   "note": ""
  },
  {
   "property": "C39",
   "status": "proved",
   "theorems": [
    "Bbn.C39_policies_repeat"
   ],
   "note": ""
  },
  {
   "property": "C40",
   "status": "proved",
   "theorems": [
    "Bbn.C40_intervention"
   ],
   "note": ""
  },
  {
   "property": "C41",
   "status": "partial",
   "theorems": [
    "Bbn.C41_fresh_refuted",
    "Bbn.C41_after_query_partial"
   ],
   "note": "The property fails on a fresh network (refuted). Proved instead: after any query the calls work."
  },
  {
   "property": "C42",
   "status": "partial",
   "theorems": [
    "Bbn.C42_row_refuted",
    "Bbn.C42_row_partial",
    "Bbn.C42_window_partial"
   ],
   "note": "The property fails: the row number is taken as the position in the table (refuted). Proved instead: exactly which window of the table is returned and when the call panics, single-column tables and first rows, missing data, wrong argument counts."
  },
  {
   "property": "C43",
   "status": "proved",
   "theorems": [
    "Bbn.C43_weights_by_name"
   ],
   "note": ""
  },
  {
   "property": "C44",
   "status": "proved",
   "theorems": [
    "Bbn.C44_rearrange",
    "Bbn.C44_rearrange_panics"
   ],
   "note": ""
  },
  {
   "property": "C45",
   "status": "partial",
   "theorems": [
    "Bbn.C45_outcomes_refuted",
    "Bbn.C45_outcomes_partial"
   ],
   "note": "The property fails for 65536 outcomes and more (refuted). Proved instead: it holds up to 65535 outcomes."
  },
  {
   "property": "C46",
   "status": "proved",
   "theorems": [
    "Bbn.C46_policy_tables"
   ],
   "note": ""
  },
  {
   "property": "C47",
   "status": "proved",
   "theorems": [
    "Bbn.C47_one_parent",
    "Bbn.C47_two_parents",
    "Bbn.C47_conditions"
   ],
   "note": ""
  },
  {
   "property": "C48",
   "status": "proved",
   "theorems": [
    "Bbn.C48_count_compare",
    "Bbn.C48_count"
   ],
   "note": ""
  },
  {
   "property": "C49",
   "status": "proved",
   "theorems": [
    "Bbn.C49_bits"
   ],
   "note": ""
  },
  {
   "property": "C50",
   "status": "partial",
   "theorems": [
    "Bbn.C50_given_refuted",
    "Bbn.C50_given_partial"
   ],
   "note": "The property fails: the parent index counts from the last parent (refuted). Proved instead: the table with the index counted from the last parent."
  },
  {
   "property": "C51",
   "status": "partial",
   "theorems": [
    "Bbn.C51_greater_refuted",
    "Bbn.C51_outcome_partial"
   ],
   "note": "The property fails: outcome-greater includes the outcome itself (refuted). Proved instead: the other outcome operators, and what outcome-greater does."
  },
  {
   "property": "C52",
   "status": "proved",
   "theorems": [
    "Bbn.C52_complete"
   ],
   "note": ""
  },
  {
   "property": "C53",
   "status": "proved",
   "theorems": [
    "Bbn.C53_node_table",
    "Bbn.C53_network"
   ],
   "note": ""
  },
  {
   "property": "C54",
   "status": "partial",
   "theorems": [
    "Bbn.C54_shared_refuted",
    "Bbn.C54_partial"
   ],
   "note": "The property fails: two results of Get share one object (refuted). Proved instead: objects allocated by the constructors, and objects of other operators, are not changed."
  },
  {
   "property": "C55",
   "status": "proved",
   "theorems": [
    "Bbn.C55_round_trip",
    "Bbn.C55_meaning"
   ],
   "note": ""
  },
  {
   "property": "C56",
   "status": "partial",
   "theorems": [
    "Bbn.C56_refuted",
    "Bbn.C56_partial"
   ],
   "note": "The property fails: ToYAML drops the description and the colours (refuted). Proved instead: exactly the networks without them keep them."
  },
  {
   "property": "C57",
   "status": "partial",
   "theorems": [
    "Bbn.C57_loaded",
    "Bbn.C57_rejected_partial",
    "Bbn.C57_refuted",
    "Bbn.C57_rows",
    "Bbn.C57_operator"
   ],
   "note": "The property fails: out-of-range arguments make loading panic (refuted). Proved: rows, operators, whole networks, and that all other faults are rejected, with an error if the nodes before do not panic."
  },
  {
   "property": "C58",
   "status": "partial",
   "theorems": [
    "Bbn.C58_matched",
    "Bbn.C58_order",
    "Bbn.C58_errors_partial",
    "Bbn.C58_refuted",
    "Bbn.C58_words",
    "Bbn.C58_loads",
    "Bbn.C58_panics_partial"
   ],
   "note": "The property fails: a variable without definition makes loading panic (refuted). Proved: matching by name and in any order, errors for all files in which every variable has a definition, exactly which files are loaded, and exactly which files make loading panic."
  },
  {
   "property": "C59",
   "status": "proved",
   "theorems": [
    "Bbn.C59_position",
    "Bbn.C59_malformed",
    "Bbn.C59_exact"
   ],
   "note": ""
  },
  {
   "property": "C60",
   "status": "proved",
   "theorems": [
    "Bbn.C60_calls",
    "Bbn.C60_relative_frequencies"
   ],
   "note": ""
  },
  {
   "property": "C61",
   "status": "partial",
   "theorems": [
    "Bbn.C61_refuted",
    "Bbn.C61_partial"
   ],
   "note": "The property fails: the counter of a utility row is increased twice, so trained utilities are half the mean (refuted). Proved instead: sum divided by twice the count."
  },
  {
   "property": "C62",
   "status": "proved",
   "theorems": [
    "Bbn.C62_order"
   ],
   "note": ""
  },
  {
   "property": "C63",
   "status": "partial",
   "theorems": [
    "Bbn.C63_refuted",
    "Bbn.C63_partial",
    "Bbn.C63_utility_partial"
   ],
   "note": "The property fails: a missing utility value of a parent still counts for the total-utility node (refuted). Proved instead: missing values of chance variables, and a missing utility for its own table."
  },
  {
   "property": "C64",
   "status": "partial",
   "theorems": [
    "Bbn.C64_refuted",
    "Bbn.C64_partial"
   ],
   "note": "The property fails: tables before the first row without data stay changed (refuted). Proved instead: when the error is returned, and that later tables are left alone."
  },
  {
   "property": "C65",
   "status": "partial",
   "theorems": [
    "Bbn.C65_errors",
    "Bbn.C65_partial",
    "Bbn.C65_columns",
    "Bbn.C65_refuted"
   ],
   "note": "The property fails for utility columns: a no-data cell is an error or counted as a number (refuted). Proved: all other files, errors, independence of column order and extra columns."
  },
  {
   "property": "C66",
   "status": "proved",
   "theorems": [
    "Bbn.C66_accepted",
    "Bbn.C66_values"
   ],
   "note": ""
  },
  {
   "property": "C67",
   "status": "proved",
   "theorems": [
    "Bbn.C67_contains",
    "Bbn.C67_centroid",
    "Bbn.C67_extend",
    "Bbn.C67_canvas"
   ],
   "note": ""
  },
  {
   "property": "C68",
   "status": "proved",
   "theorems": [
    "Bbn.C68_header",
    "Bbn.C68_parents",
    "Bbn.C68_values",
    "Bbn.C68_rows"
   ],
   "note": ""
  },
  {
   "property": "C69",
   "status": "partial",
   "theorems": [
    "Bbn.C69_partial",
    "Bbn.C69_refuted"
   ],
   "note": "The claim is false: a click on a node away from its outcome lines selects the node but keeps the outcome number of the node before, so Enter can crash (C69_refuted: two spaces, a click and Enter on a two-node network). C69_partial proves that the selected node always exists, and the selected outcome for all sessions without such clicks, in particular for all keyboard sessions."
  },
  {
   "property": "C70",
   "status": "partial",
   "theorems": [
    "Bbn.C70_partial",
    "Bbn.C70_refuted"
   ],
   "note": "The property fails for files with negative positions: starting the app crashes (refuted). Proved instead: for every network with which the app starts and every session, each node lies on the canvas, and drawing nodes and edges stays on it."
  },
  {
   "property": "C71",
   "status": "proved",
   "theorems": [
    "Bbn.C71_enter",
    "Bbn.C71_twice",
    "Bbn.C71_click",
    "Bbn.C71_others",
    "Bbn.C71_session"
   ],
   "note": ""
  },
  {
   "property": "C72",
   "status": "proved",
   "theorems": [
    "Bbn.C72_utilities",
    "Bbn.C72_total"
   ],
   "note": ""
  },
  {
   "property": "C73",
   "status": "partial",
   "theorems": [
    "Bbn.C73_partial",
    "Bbn.C73_ignored",
    "Bbn.C73_refuted"
   ],
   "note": "The property fails: the no-data value is dropped (refuted). Proved: all other arguments are used, and the app trains as if the no-data value were empty."
  },
  {
   "property": "C74",
   "status": "proved",
   "theorems": [
    "Bbn.C74_jointly_optimal"
   ],
   "note": ""
  },
  {
   "property": "C75",
   "status": "proved",
   "theorems": [
    "Bbn.C75_solveUtility_exact",
    "Bbn.C75_expected_utility"
   ],
   "note": ""
  },
  {
   "property": "C76",
   "status": "partial",
   "theorems": [
    "Bbn.C76_partial",
    "Bbn.C76_refuted"
   ],
   "note": "The property fails: a decision without a table makes NewTrainer panic (refuted). Proved instead: all networks in which every variable has a table of the right size."
  },
  {
   "property": "C77",
   "status": "partial",
   "theorems": [
    "Bbn.C77_refuted",
    "Bbn.C77_replaced_partial",
    "Bbn.C61_partial"
   ],
   "note": "The property fails: the weights are replaced (refuted). Proved instead: what they are replaced by (the first listed utility gets half of the average of the values given for the node itself, all others get zero)."
  },
  {
   "property": "C78",
   "status": "proved",
   "theorems": [
    "Bbn.C78_probabilities"
   ],
   "note": ""
  },
  {
   "property": "C79",
   "status": "proved",
   "theorems": [
    "Bbn.C79_no_crash"
   ],
   "note": ""
  },
  {
   "property": "C80",
   "status": "partial",
   "theorems": [
    "Bbn.C80_partial",
    "Bbn.C80_one_decision",
    "Bbn.C80_refuted"
   ],
   "note": "The claim is false: solved together, a policy may depend on another decision that is not a parent (C80_refuted: two people choosing a side). C80_partial proves that a policy depends only on decisions and on parents of decisions, step by step only on its own decision's parents and on decisions; C80_one_decision proves the full claim for one decision."
  },
  {
   "property": "C81",
   "status": "proved",
   "theorems": [
    "Bbn.C81_listed",
    "Bbn.C81_optimal"
   ],
   "note": ""
  },
  {
   "property": "C82",
   "status": "proved",
   "theorems": [
    "Bbn.C82_best_response"
   ],
   "note": ""
  },
  {
   "property": "C83",
   "status": "proved",
   "theorems": [
    "Bbn.C83_listed",
    "Bbn.C83_stepwise"
   ],
   "note": ""
  },
  {
   "property": "C84",
   "status": "proved",
   "theorems": [
    "Bbn.C84_utility_after_policies"
   ],
   "note": ""
  },
  {
   "property": "C85",
   "status": "partial",
   "theorems": [
    "Bbn.C85_partial",
    "Bbn.C85_refuted"
   ],
   "note": "The claim is false: step by step, a later decision ignores what earlier decisions saw (C85_refuted: 3/4 instead of 1 for a filed letter). C85_partial proves that step by step never reports more than together if the declared order leaves no choice."
  },
  {
   "property": "C86",
   "status": "proved",
   "theorems": [
    "Bbn.C86_markov",
    "Bbn.C86_total",
    "Bbn.C86_cycle"
   ],
   "note": ""
  },
  {
   "property": "C87",
   "status": "proved",
   "theorems": [
    "Bbn.C87_barren"
   ],
   "note": ""
  },
  {
   "property": "C88",
   "status": "proved",
   "theorems": [
    "Bbn.C88_bayes",
    "Bbn.C88_total",
    "Bbn.C88_separately"
   ],
   "note": ""
  },
  {
   "property": "C89",
   "status": "proved",
   "theorems": [
    "Bbn.C89_listing_order"
   ],
   "note": ""
  },
  {
   "property": "C90",
   "status": "proved",
   "theorems": [
    "Bbn.C90_box",
    "Bbn.C90_probabilities",
    "Bbn.C90_utilities",
    "Bbn.C90_wide"
   ],
   "note": "C90_probabilities and C90_utilities show which numbers fit; C90_wide shows that larger utilities overwrite the frame and leave digits behind."
  },
  {
   "property": "C91",
   "status": "proved",
   "theorems": [
    "Bbn.C91_canvas"
   ],
   "note": ""
  },
  {
   "property": "C92",
   "status": "partial",
   "theorems": [
    "Bbn.C92_arrow_partial",
    "Bbn.C92_shown_partial",
    "Bbn.C92_refuted"
   ],
   "note": "The claim is false: the edge between boxes that touch is covered by the parent's box (C92_refuted). C92_arrow_partial proves that boxes with a free row or column between them are joined by one unbroken arrow outside of both boxes, C92_shown_partial that it is visible where no other box or edge is."
  },
  {
   "property": "C93",
   "status": "proved",
   "theorems": [
    "Bbn.C93_rounding",
    "Bbn.C93_bayesian"
   ],
   "note": ""
  },
  {
   "property": "C94",
   "status": "proved",
   "theorems": [
    "Bbn.C94_path",
    "Bbn.C94_files",
    "Bbn.C94_saved"
   ],
   "note": ""
  },
  {
   "property": "C95",
   "status": "proved",
   "theorems": [
    "Bbn.C95_printed",
    "Bbn.C95_errors"
   ],
   "note": ""
  },
  {
   "property": "C96",
   "status": "proved",
   "theorems": [
    "Bbn.C96_delimiter",
    "Bbn.C96_reload",
    "Bbn.C96_frequencies"
   ],
   "note": ""
  },
  {
   "property": "C97",
   "status": "proved",
   "theorems": [
    "Bbn.C97_settled",
    "Bbn.C97_total"
   ],
   "note": ""
  },
  {
   "property": "C98",
   "status": "proved",
   "theorems": [
    "Bbn.C98_separated"
   ],
   "note": ""
  },
  {
   "property": "C99",
   "status": "proved",
   "theorems": [
    "Bbn.C99_recall",
    "Bbn.C99_same_value"
   ],
   "note": ""
  },
  {
   "property": "C100",
   "status": "proved",
   "theorems": [
    "Bbn.C100_information"
   ],
   "note": ""
  },
  {
   "property": "C101",
   "status": "proved",
   "theorems": [
    "Bbn.C101_units"
   ],
   "note": ""
  },
  {
   "property": "C102",
   "status": "partial",
   "theorems": [
    "Bbn.C102_characters_partial",
    "Bbn.C102_names_partial",
    "Bbn.C102_refuted"
   ],
   "note": "The claim is false: a name that looks like a colour tag, such as [red], is not shown (C102_refuted). C102_names_partial proves it for all networks without closing brackets in names (under the conditions of C91), C102_characters_partial for every session in which no row of the picture contains a tag."
  },
  {
   "property": "C103",
   "status": "partial",
   "theorems": [
    "Bbn.C103_colors_partial",
    "Bbn.C103_lost",
    "Bbn.C103_margin_partial",
    "Bbn.C103_refuted"
   ],
   "note": "The claim is false: the colour before a line is taken to be that of the end of the previous line, although every line ends with a switch to white; so the left side of a blue box as wide as the canvas is white (C103_refuted; C103_lost says when exactly the first place of a line is wrong). C103_colors_partial proves that all other places are right, C103_margin_partial that everything is right if boxes at the left margin are white."
  },
  {
   "property": "C104",
   "status": "proved",
   "theorems": [
    "Bbn.C104_one",
    "Bbn.C104_start",
    "Bbn.C104_dialog",
    "Bbn.C104_graph",
    "Bbn.C104_open",
    "Bbn.C104_session"
   ],
   "note": "Proved under assumptions about tview stated in Model/TuiPages (which widget gets a key or a click; Pages.ShowPage and HidePage focus the page in front). A widget taking the focus when a mouse button is pressed on it is not modelled."
  },
  {
   "property": "C105",
   "status": "proved",
   "theorems": [
    "Bbn.C105_table",
    "Bbn.C105_border"
   ],
   "note": "C105_table: title and all cells of an open table page, for every network that can be shown; C105_border: the border."
  },
  {
   "property": "C106",
   "status": "partial",
   "theorems": [
    "Bbn.C106_unused_fails",
    "Bbn.C106_cycle_fails",
    "Bbn.C106_partial",
    "Bbn.C106_app",
    "Bbn.C106_inference",
    "Bbn.C106_refuted"
   ],
   "note": "The claim as stated is false (C106_refuted): a decision that is a parent of no chance or utility variable makes SolvePolicies fail for the whole network (C106_unused_fails), so bbni does not start (C106_app) and bbn inference prints nothing (C106_inference). So do decisions that inform each other in a cycle (C106_cycle_fails). C106_partial: SolvePolicies succeeds exactly if neither is the case, for every valid network, with utilities or without."
  },
  {
   "property": "C107",
   "status": "proved",
   "theorems": [
    "Bbn.C107_total",
    "Bbn.C107_average",
    "Bbn.C107_between"
   ],
   "note": ""
  },
  {
   "property": "C108",
   "status": "proved",
   "theorems": [
    "Bbn.C108_query",
    "Bbn.C108_evidence",
    "Bbn.C108_utility",
    "Bbn.C108_decisions"
   ],
   "note": ""
  },
  {
   "property": "C109",
   "status": "partial",
   "theorems": [
    "Bbn.C109_partial",
    "Bbn.C109_refuted"
   ],
   "note": "The claim is false: a decision that observes a consequence of another decision must be listed after it, or name it as a parent; otherwise the other decision is taken as if its consequence were already known. C109_refuted: no utility exceeds 1, but 9/5 is reported, and no evidence has 'probability' 9/5. C109_partial: with decisions listed in the order of events, or with a declared order that leaves no choice, the claim holds in both modes."
  },
  {
   "property": "C110",
   "status": "proved",
   "theorems": [
    "Bbn.C110_report",
    "Bbn.C110_best"
   ],
   "note": ""
  },
  {
   "property": "C111",
   "status": "proved",
   "theorems": [
    "Bbn.C111_circuit",
    "Bbn.C111_inputs",
    "Bbn.C111_logic"
   ],
   "note": ""
  },
  {
   "property": "C112",
   "status": "proved",
   "theorems": [
    "Bbn.C112_fit"
   ],
   "note": ""
  },
  {
   "property": "C113",
   "status": "proved",
   "theorems": [
    "Bbn.C113_frequencies",
    "Bbn.C113_parents"
   ],
   "note": ""
  },
  {
   "property": "C114",
   "status": "proved",
   "theorems": [
    "Bbn.C114_rounding",
    "Bbn.C114_expected_utility"
   ],
   "note": ""
  },
  {
   "property": "C115",
   "status": "proved",
   "theorems": [
    "Bbn.C115_rounding"
   ],
   "note": ""
  },
  {
   "property": "C116",
   "status": "partial",
   "theorems": [
    "Bbn.C116_asked_again_partial",
    "Bbn.C116_dropped_observation_panics",
    "Bbn.C116_summed_out_lost",
    "Bbn.C116_utility_after_query_panics",
    "Bbn.C116_refuted"
   ],
   "note": "The claim is false: a question that drops an observation of an earlier one panics (C116_dropped_observation_panics), one that asks for a variable summed out earlier gets a table without it (C116_summed_out_lost), and SolveUtility after SolveQuery panics (C116_utility_after_query_panics); C116_refuted shows all three. C116_asked_again_partial proves the claim for any number of questions if each repeats the observations of the one before and neither observes nor asks for what it summed out. Other calls of SolveUtility and SolvePolicies on a used object are not covered."
  },
  {
   "property": "C117",
   "status": "proved",
   "theorems": [
    "Bbn.C117_answers_iff"
   ],
   "note": ""
  },
  {
   "property": "C118",
   "status": "partial",
   "theorems": [
    "Bbn.C118_close_partial",
    "Bbn.C118_bayesian_partial",
    "Bbn.C118_refuted"
   ],
   "note": "The claim is false: C118_refuted shows two iteration orders that give a probability differing in the last bit, in 53 bit arithmetic. C118_close_partial and C118_bayesian_partial bound the difference for all networks; in exact arithmetic there is none (C24, C31)."
  },
  {
   "property": "C119",
   "status": "partial",
   "theorems": [
    "Bbn.C119_clear_partial",
    "Bbn.C119_same_partial",
    "Bbn.C119_refuted"
   ],
   "note": "The claim is false: C119_refuted shows a network in 53 bit arithmetic in which the iteration order decides whether the policy is certain or indifferent. C119_clear_partial and C119_same_partial prove it where one outcome is better than the others by more than the rounding error; there the decisions have to be listed in the declared order and solved one after another."
  },
  {
   "property": "C120",
   "status": "partial",
   "theorems": [
    "Bbn.C120_create",
    "Bbn.C120_create_data",
    "Bbn.C120_index",
    "Bbn.C120_get_set",
    "Bbn.C120_indexWithNoData",
    "Bbn.C120_row",
    "Bbn.C120_operations_partial",
    "Bbn.C120_query_partial",
    "Bbn.C120_utility_partial",
    "Bbn.C120_policies_partial",
    "Bbn.C120_handling_partial",
    "Bbn.C120_careful_partial",
    "Bbn.C120_refuted"
   ],
   "note": "The claim is false: C120_refuted asks a network of 64 two-outcome variables for all of them and gets an empty table and no error. C120_query_partial, C120_utility_partial, C120_policies_partial and C120_operations_partial prove it for less than 2^63 combinations of outcomes, C120_careful_partial for all runs in which no table reaches 2^63 entries. C120_create, C120_index, C120_indexWithNoData and C120_row say exactly what the 64-bit functions compute for all arguments. The limits of the memory are not modelled."
  },
  {
   "property": "C121",
   "status": "partial",
   "theorems": [
    "Bbn.C121_range_partial",
    "Bbn.C121_bayesian_partial",
    "Bbn.C121_refuted"
   ],
   "note": "The claim is false: C121_refuted gives a network with possible evidence, an exact posterior above 0.79 and the answer NaN. C121_range_partial and C121_bayesian_partial prove it when the sizes of the table entries (in halvings), the outcomes and the query together stay within the exponent range; the budget does not depend on the elimination order. Only SolveQuery is treated, and the numbers that are neither in range nor zero (denormals) may be anything."
  },
  {
   "property": "C122",
   "status": "proved",
   "theorems": [
    "Bbn.C122_joint",
    "Bbn.C122_table",
    "Bbn.C122_repeat"
   ],
   "note": ""
  },
  {
   "property": "C123",
   "status": "partial",
   "theorems": [
    "Bbn.C123_policies_partial",
    "Bbn.C123_refuted_policies",
    "Bbn.C123_refuted_query"
   ],
   "note": "The claim is false: C123_refuted_policies and C123_refuted_query give a network whose tables come out with the variables in another order under another map iteration order. C123_policies_partial proves it for policies with at most one parent; what holds in general is in C39 (same entry in every situation) and C122_repeat (same factor after Rearrange)."
  },
  {
   "property": "C124",
   "status": "proved",
   "theorems": [
    "Bbn.C124_options"
   ],
   "note": ""
  },
  {
   "property": "C125",
   "status": "proved",
   "theorems": [
    "Bbn.C125_repeated"
   ],
   "note": ""
  },
  {
   "property": "C126",
   "status": "proved",
   "theorems": [
    "Bbn.C126_forgets",
    "Bbn.C126_again"
   ],
   "note": ""
  },
  {
   "property": "C127",
   "status": "proved",
   "theorems": [
    "Bbn.C127_close",
    "Bbn.C127_possible",
    "Bbn.C127_utility"
   ],
   "note": ""
  },
  {
   "property": "C128",
   "status": "proved",
   "theorems": [
    "Bbn.C128_certain",
    "Bbn.C128_utility",
    "Bbn.C128_settled"
   ],
   "note": ""
  },
  {
   "property": "C129",
   "status": "partial",
   "theorems": [
    "Bbn.C129_apart_partial",
    "Bbn.C129_locked_partial",
    "Bbn.C129_own_network_partial",
    "Bbn.C129_posteriors_partial",
    "Bbn.C129_overlap_refuted"
   ],
   "note": "Proved for calls on the same network that do not overlap; refuted for overlapping calls (`C129_overlap_refuted`): the solver's variables are kept in the network."
  },
  {
   "property": "C130",
   "status": "partial",
   "theorems": [
    "Bbn.C130_update_partial",
    "Bbn.C130_others_partial",
    "Bbn.C130_in_turn_partial",
    "Bbn.C130_new_partial",
    "Bbn.C130_new_others_partial",
    "Bbn.C130_table_refuted",
    "Bbn.C130_factors_refuted",
    "Bbn.C130_twins_refuted"
   ],
   "note": "Proved for networks that share no slices; refuted for shared ones (`C130_table_refuted`, `C130_factors_refuted`, `C130_twins_refuted`)."
  },
  {
   "property": "C131",
   "status": "partial",
   "theorems": [
    "Bbn.C131_query_partial",
    "Bbn.C131_utility_evidence_refuted"
   ],
   "note": "Proved if no evidence is about a utility variable; refuted for such evidence (`C131_utility_evidence_refuted`): it distorts the posteriors, and SolveUtility panics."
  },
  {
   "property": "C132",
   "status": "partial",
   "theorems": [
    "Bbn.C132_probabilities_refuted",
    "Bbn.C132_total_partial"
   ],
   "note": "Errors and answers are characterised; that an answer is about utilities is refuted (`C132_probabilities_refuted`)."
  },
  {
   "property": "C133",
   "status": "proved",
   "theorems": [
    "Bbn.C133_train_then_ask"
   ],
   "note": "Numbers are exact; the rounding of floats is the subject of C93."
  },
  {
   "property": "C134",
   "status": "proved",
   "theorems": [
    "Bbn.C134_query_fits_iff_biggest_table",
    "Bbn.C134_taken_out_in_one_order",
    "Bbn.C134_memory_need_ignores_numbers"
   ],
   "note": "Counts entries of single tables, not bytes, and not the sum over the tables alive at the same time."
  },
  {
   "property": "C135",
   "status": "partial",
   "theorems": [
    "Bbn.C135_small_tables_around_line_partial",
    "Bbn.C135_small_tables_children_first_partial",
    "Bbn.C135_small_tables_in_trees_refuted"
   ],
   "note": "Missing: networks in which the variables with children branch; the claim is false for these."
  },
  {
   "property": "C136",
   "status": "partial",
   "theorems": [
    "Bbn.C136_more_evidence_same_order_partial",
    "Bbn.C136_more_evidence_less_memory_refuted"
   ],
   "note": "Missing: evidence that changes the order of the other variables; the claim is false for it."
  },
  {
   "property": "C137",
   "status": "partial",
   "theorems": [
    "Bbn.C137_one_table_partial",
    "Bbn.C137_no_evidence_partial",
    "Bbn.C137_two_tables_refuted"
   ],
   "note": "Missing: several tables mixed at once; the claim is false for it."
  },
  {
   "property": "C138",
   "status": "proved",
   "theorems": [
    "Bbn.C138_same_joint",
    "Bbn.C138_same_tables",
    "Bbn.C138_turned_arrow",
    "Bbn.C138_utility"
   ],
   "note": ""
  },
  {
   "property": "C139",
   "status": "proved",
   "theorems": [
    "Bbn.C139_sensor",
    "Bbn.C139_ratios"
   ],
   "note": ""
  },
  {
   "property": "C140",
   "status": "proved",
   "theorems": [
    "Bbn.C140_expectation",
    "Bbn.C140_probabilities",
    "Bbn.C140_utilities"
   ],
   "note": ""
  },
  {
   "property": "C141",
   "status": "proved",
   "theorems": [
    "Bbn.C141_expectation",
    "Bbn.C141_decisions"
   ],
   "note": ""
  },
  {
   "property": "C142",
   "status": "proved",
   "theorems": [
    "Bbn.C142_dominated"
   ],
   "note": ""
  },
  {
   "property": "C143",
   "status": "proved",
   "theorems": [
    "Bbn.C143_unused",
    "Bbn.C143_dominated"
   ],
   "note": ""
  },
  {
   "property": "C144",
   "status": "proved",
   "theorems": [
    "Bbn.C144_no_answer",
    "Bbn.C144_unknown",
    "Bbn.C144_wrongSize",
    "Bbn.C144_unweighted"
   ],
   "note": ""
  },
  {
   "property": "C145",
   "status": "proved",
   "theorems": [
    "Bbn.C145_zeros",
    "Bbn.C145_nan"
   ],
   "note": ""
  },
  {
   "property": "C146",
   "status": "proved",
   "theorems": [
    "Bbn.C146_even",
    "Bbn.C146_panics"
   ],
   "note": ""
  },
  {
   "property": "C147",
   "status": "proved",
   "theorems": [
    "Bbn.C147_query",
    "Bbn.C147_utility",
    "Bbn.C147_decisions"
   ],
   "note": ""
  },
  {
   "property": "C148",
   "status": "proved",
   "theorems": [
    "Bbn.C148_query",
    "Bbn.C148_utility",
    "Bbn.C148_decisions"
   ],
   "note": ""
  },
  {
   "property": "C149",
   "status": "proved",
   "theorems": [
    "Bbn.C149_tried",
    "Bbn.C149_likely",
    "Bbn.C149_one_decision",
    "Bbn.C149_shown"
   ],
   "note": ""
  },
  {
   "property": "C150",
   "status": "proved",
   "theorems": [
    "Bbn.C150_stepwise",
    "Bbn.C150_together"
   ],
   "note": ""
  },
  {
   "property": "C151",
   "status": "proved",
   "theorems": [
    "Bbn.C151_stepwise"
   ],
   "note": ""
  },
  {
   "property": "C152",
   "status": "proved",
   "theorems": [
    "Bbn.C152_stepwise"
   ],
   "note": ""
  },
  {
   "property": "C153",
   "status": "proved",
   "theorems": [
    "Bbn.C153_whatif"
   ],
   "note": ""
  },
  {
   "property": "C154",
   "status": "proved",
   "theorems": [
    "Bbn.C154_tree"
   ],
   "note": ""
  },
  {
   "property": "C155",
   "status": "proved",
   "theorems": [
    "Bbn.C155_node"
   ],
   "note": ""
  },
  {
   "property": "C156",
   "status": "proved",
   "theorems": [
    "Bbn.C156_answer"
   ],
   "note": ""
  },
  {
   "property": "C157",
   "status": "proved",
   "theorems": [
    "Bbn.C157_update"
   ],
   "note": ""
  },
  {
   "property": "C158",
   "status": "proved",
   "theorems": [
    "Bbn.C158_answer",
    "Bbn.C158_between",
    "Bbn.C158_utility"
   ],
   "note": ""
  },
  {
   "property": "C159",
   "status": "proved",
   "theorems": [
    "Bbn.C159_seeing"
   ],
   "note": ""
  },
  {
   "property": "C160",
   "status": "proved",
   "theorems": [
    "Bbn.C160_toss"
   ],
   "note": ""
  },
  {
   "property": "C161",
   "status": "proved",
   "theorems": [
    "Bbn.C161_one",
    "Bbn.C161_same_worth",
    "Bbn.C161_affine",
    "Bbn.C161_units",
    "Bbn.C161_zero",
    "Bbn.C161_value",
    "Bbn.C161_affine_value"
   ],
   "note": ""
  },
  {
   "property": "C162",
   "status": "proved",
   "theorems": [
    "Bbn.C162_tables",
    "Bbn.C162_answers"
   ],
   "note": ""
  },
  {
   "property": "C163",
   "status": "proved",
   "theorems": [
    "Bbn.C163_tables",
    "Bbn.C163_acting",
    "Bbn.C163_answers"
   ],
   "note": ""
  },
  {
   "property": "C164",
   "status": "proved",
   "theorems": [
    "Bbn.C164_value",
    "Bbn.C164_acting_value",
    "Bbn.C164_answers",
    "Bbn.C164_half",
    "Bbn.C164_decisions",
    "Bbn.C164_acting"
   ],
   "note": ""
  },
  {
   "property": "C165",
   "status": "proved",
   "theorems": [
    "Bbn.C165_enough",
    "Bbn.C165_probabilities",
    "Bbn.C165_utilities"
   ],
   "note": ""
  },
  {
   "property": "C166",
   "status": "proved",
   "theorems": [
    "Bbn.C166_answers",
    "Bbn.C166_posterior"
   ],
   "note": ""
  }
 ]
}