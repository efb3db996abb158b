{
 "claims": [
  {
   "property": "C01",
   "status": "proved",
   "theorems": [
    "Chandeliers.Props.C01_binop_defined",
    "Chandeliers.Props.C01_binop_nil_iff",
    "Chandeliers.Props.C01_binop_panic_iff",
    "Chandeliers.Props.C01_unop_defined",
    "Chandeliers.Props.C01_unop_nil_iff"
   ],
   "note": ""
  },
  {
   "property": "C02",
   "status": "proved",
   "theorems": [
    "Chandeliers.Props.C02_cmp_nil_iff",
    "Chandeliers.Props.C02_cmp_true_iff",
    "Chandeliers.Props.C02_negation",
    "Chandeliers.Props.C02_swap",
    "Chandeliers.Props.C02_total"
   ],
   "note": ""
  },
  {
   "property": "C03",
   "status": "proved",
   "theorems": [
    "Chandeliers.Props.C03_assertIs_iff",
    "Chandeliers.Props.C03_eq_iff",
    "Chandeliers.Props.C03_is_equivalence",
    "Chandeliers.Props.C03_is_nil_iff"
   ],
   "note": ""
  },
  {
   "property": "C04",
   "status": "proved",
   "theorems": [
    "Chandeliers.Props.C04_ago_most_recent"
   ],
   "note": ""
  },
  {
   "property": "C05",
   "status": "proved",
   "theorems": [
    "Chandeliers.Props.C05_ago_panic_kind",
    "Chandeliers.Props.C05_ago_panics_iff",
    "Chandeliers.Props.C05_extend_shifts",
    "Chandeliers.Props.C05_observational",
    "Chandeliers.Props.C05_update_shifts"
   ],
   "note": ""
  },
  {
   "property": "C06",
   "status": "proved",
   "theorems": [
    "Chandeliers.Props.C06_embed_injective",
    "Chandeliers.Props.C06_trusted_embed",
    "Chandeliers.Props.C06_trusted_ok_iff",
    "Chandeliers.Props.C06_trusted_panics_iff"
   ],
   "note": ""
  },
  {
   "property": "C07",
   "status": "proved",
   "theorems": [
    "Chandeliers.Props.C07_allNil",
    "Chandeliers.Props.C07_allNil_unique",
    "Chandeliers.Props.C07_firstIsNil"
   ],
   "note": ""
  },
  {
   "property": "C08",
   "status": "proved",
   "theorems": [
    "Chandeliers.Props.C08_absent_step",
    "Chandeliers.Props.C08_present_step"
   ],
   "note": ""
  },
  {
   "property": "C09",
   "status": "proved",
   "theorems": [
    "Chandeliers.Props.C09_spread_filter",
    "Chandeliers.Props.C09_stuttering"
   ],
   "note": ""
  },
  {
   "property": "C10",
   "status": "proved",
   "theorems": [
    "Chandeliers.Props.C10_flip_once"
   ],
   "note": ""
  },
  {
   "property": "C11",
   "status": "proved",
   "theorems": [
    "Chandeliers.Props.C11_register_fby",
    "Chandeliers.Props.C11_reinitialises_counterexample"
   ],
   "note": "Holds for values whose first component is present; C11_reinitialises_counterexample shows what happens otherwise."
  },
  {
   "property": "C12",
   "status": "proved",
   "theorems": [
    "Chandeliers.Props.C12_register_pre"
   ],
   "note": ""
  },
  {
   "property": "C13",
   "status": "proved",
   "theorems": [
    "Chandeliers.Props.C13_inactive_holds",
    "Chandeliers.Props.C13_schedule_commutes",
    "Chandeliers.Props.C13_schedule_get"
   ],
   "note": ""
  },
  {
   "property": "C14",
   "status": "proved",
   "theorems": [
    "Chandeliers.Props.C14_no_effect",
    "Chandeliers.Props.C14_node",
    "Chandeliers.Props.C14_truth_iff"
   ],
   "note": ""
  },
  {
   "property": "C15",
   "status": "proved",
   "theorems": [
    "Chandeliers.Props.C15_merge_of_sampled",
    "Chandeliers.Props.C15_sampled_of_merge",
    "Chandeliers.Props.C15_sampling_idempotent",
    "Chandeliers.Props.C15_switch_evaluated_twice",
    "Chandeliers.Props.C15_truth_tables",
    "Chandeliers.Props.C15_twice_matters"
   ],
   "note": ""
  },
  {
   "property": "C16",
   "status": "proved",
   "theorems": [
    "Chandeliers.Props.C16_expression",
    "Chandeliers.Props.C16_lustre",
    "Chandeliers.Props.C16_node",
    "Chandeliers.Props.C16_outputs"
   ],
   "note": "Expressions, and whole nodes as sets of equations; C16_outputs: the outputs of an accepted node are those of the Lustre solution."
  },
  {
   "property": "C17",
   "status": "proved",
   "theorems": [
    "Chandeliers.Props.C17_chain",
    "Chandeliers.Props.C17_nested"
   ],
   "note": ""
  },
  {
   "property": "C18",
   "status": "partial",
   "theorems": [
    "Chandeliers.Props.C18_counterexample_arrow",
    "Chandeliers.Props.C18_counterexample_condition",
    "Chandeliers.Props.C18_node_partial",
    "Chandeliers.Props.C18_outputs_partial",
    "Chandeliers.Props.C18_program_outputs_partial",
    "Chandeliers.Props.C18_program_partial",
    "Chandeliers.Props.C18_program_tidy_partial",
    "Chandeliers.Props.C18_prompt_partial",
    "Chandeliers.Props.C18_source_partial"
   ],
   "note": "C18_node_partial, C18_program_partial: what the node computes agrees with the reference; C18_outputs_partial, C18_program_outputs_partial: the outputs are those of a solution in the reference. Conditions: the emitted code is one that rustc accepts (F4), the left operands of arrows are initialised when present (F9) and the branches of an if are present together (F12). C18_prompt_partial: a solution exists, is unique and gives the outputs (Regular, PromptNode). C18_source_partial: the same with conditions on the source only (Orderly, PromptNode). False beyond that: the two C18_counterexample theorems."
  },
  {
   "property": "C19",
   "status": "proved",
   "theorems": [
    "Chandeliers.Props.C19_delayed_call"
   ],
   "note": ""
  },
  {
   "property": "C20",
   "status": "partial",
   "theorems": [
    "Chandeliers.Props.C20_check_exact",
    "Chandeliers.Props.C20_counterexample_delayed_call",
    "Chandeliers.Props.C20_counterexample_nested_arrow",
    "Chandeliers.Props.C20_counterexample_partial_call",
    "Chandeliers.Props.C20_program_partial",
    "Chandeliers.Props.C20_source_partial",
    "Chandeliers.Props.C20_universal_partial"
   ],
   "note": "C20_check_exact: what the check tests. C20_program_partial: default mode, nodes that satisfy Sober (strict clocks, calls that are begun, no float comparison, constant conditions with branches on one clock). C20_universal_partial: programs that mix both modes, the nodes with universal_pre being Steady. C20_source_partial: the same with conditions on the source only (Orderly). False beyond that: the three C20_counterexample theorems."
  },
  {
   "property": "C21",
   "status": "proved",
   "theorems": [
    "Chandeliers.Props.C21_depths_cover",
    "Chandeliers.Props.C21_depths_minimal",
    "Chandeliers.Props.C21_never_too_far",
    "Chandeliers.Props.C21_only_depths",
    "Chandeliers.Props.C21_reads_succeed"
   ],
   "note": "Undeclared variables are assumed already refused by the type checker."
  },
  {
   "property": "C22",
   "status": "proved",
   "theorems": [
    "Chandeliers.Props.C22_node",
    "Chandeliers.Props.C22_program",
    "Chandeliers.Props.C22_schedule_perm"
   ],
   "note": ""
  },
  {
   "property": "C23",
   "status": "proved",
   "theorems": [
    "Chandeliers.Props.C23_defined_before_use",
    "Chandeliers.Props.C23_node",
    "Chandeliers.Props.C23_program",
    "Chandeliers.Props.C23_writes_before_reads"
   ],
   "note": "The activation clock of a register initialisation is not a dependency and is excluded."
  },
  {
   "property": "C24",
   "status": "proved",
   "theorems": [
    "Chandeliers.Props.C24_accepts_iff",
    "Chandeliers.Props.C24_error_truthful",
    "Chandeliers.Props.C24_node",
    "Chandeliers.Props.C24_order_implies_acyclic",
    "Chandeliers.Props.C24_program"
   ],
   "note": ""
  },
  {
   "property": "C25",
   "status": "proved",
   "theorems": [
    "Chandeliers.Props.C25_exactly_one_definition"
   ],
   "note": ""
  },
  {
   "property": "C26",
   "status": "proved",
   "theorems": [
    "Chandeliers.Props.C26_equations_order",
    "Chandeliers.Props.C26_order_irrelevant",
    "Chandeliers.Props.C26_program",
    "Chandeliers.Props.C26_program_registers",
    "Chandeliers.Props.C26_source_order_irrelevant"
   ],
   "note": "Programs: with #[universal_pre] under the conditions of C59 (findings F4, F10). Single nodes: for nodes wired as the translation does. Activation clocks of registers must read inputs only (finding F4)."
  },
  {
   "property": "C27",
   "status": "proved",
   "theorems": [
    "Chandeliers.Props.C27_call",
    "Chandeliers.Props.C27_starts",
    "Chandeliers.Props.C27_unify_complete",
    "Chandeliers.Props.C27_unify_refuses",
    "Chandeliers.Props.C27_unify_sound"
   ],
   "note": "Signatures with distinct type variables, which the attribute parser guarantees within one attribute (finding F6 in DESIGN.md)."
  },
  {
   "property": "C28",
   "status": "proved",
   "theorems": [
    "Chandeliers.Props.C28_compiled_node",
    "Chandeliers.Props.C28_expression",
    "Chandeliers.Props.C28_node",
    "Chandeliers.Props.C28_program",
    "Chandeliers.Props.C28_program_default",
    "Chandeliers.Props.C28_program_tidy"
   ],
   "note": "Per expression and per node, and for whole accepted programs (C28_program). With #[universal_pre], registers must step on inputs (finding F4) and not hold one-element tuples (finding F10); nothing is asked of programs in the default mode (C28_program_default)."
  },
  {
   "property": "C29",
   "status": "partial",
   "theorems": [
    "Chandeliers.Props.C29_compiles",
    "Chandeliers.Props.C29_lazy_if_counterexample",
    "Chandeliers.Props.C29_nan_counterexample",
    "Chandeliers.Props.C29_node_same_partial",
    "Chandeliers.Props.C29_node_value_partial",
    "Chandeliers.Props.C29_same_value",
    "Chandeliers.Props.C29_value"
   ],
   "note": "Accepted constants compile and have a value of their type; a value inside a node is that of the constant. When all the parts of the constant have a value and no NaN is ordered, the node has that value too (C29_node_same_partial). Without these conditions the converse fails for NaN comparisons and for panics in the other branch of an if: C29_nan_counterexample and C29_lazy_if_counterexample."
  },
  {
   "property": "C30",
   "status": "partial",
   "theorems": [
    "Chandeliers.Props.C30_counterexample_arrow",
    "Chandeliers.Props.C30_counterexample_condition",
    "Chandeliers.Props.C30_expression_partial",
    "Chandeliers.Props.C30_program_partial",
    "Chandeliers.Props.C30_source_partial",
    "Chandeliers.Props.C30_source_universal_partial",
    "Chandeliers.Props.C30_universal_expression_partial",
    "Chandeliers.Props.C30_universal_partial"
   ],
   "note": "Same conditions as C20; C30_program_partial is about the declared variables, C30_expression_partial about the expressions of the equations. With universal_pre, C30_universal_partial and C30_universal_expression_partial, for nodes that are Steady. C30_source_partial, C30_source_universal_partial: conditions on the source only (Orderly). False beyond that: the two C30_counterexample theorems."
  },
  {
   "property": "C31",
   "status": "proved",
   "theorems": [
    "Chandeliers.Props.C31_arrow",
    "Chandeliers.Props.C31_comparison",
    "Chandeliers.Props.C31_fby",
    "Chandeliers.Props.C31_left"
   ],
   "note": ""
  },
  {
   "property": "C32",
   "status": "proved",
   "theorems": [
    "Chandeliers.Props.C32_slots"
   ],
   "note": "The copies of expressions that register reads carry for the later checks are not evaluated there and do not count."
  },
  {
   "property": "C33",
   "status": "proved",
   "theorems": [
    "Chandeliers.Props.C33_const_options",
    "Chandeliers.Props.C33_duplicate_generics_undetected",
    "Chandeliers.Props.C33_extern_const_options",
    "Chandeliers.Props.C33_extern_node_options",
    "Chandeliers.Props.C33_last_wins",
    "Chandeliers.Props.C33_malformed_reported",
    "Chandeliers.Props.C33_node_options",
    "Chandeliers.Props.C33_pub_implies_export"
   ],
   "note": "Options are taken from well-formed attributes with numbers below 2^64. Larger numbers make the macro panic in usize parsing."
  },
  {
   "property": "C34",
   "status": "proved",
   "theorems": [
    "Chandeliers.Props.C34_assert_used_iff",
    "Chandeliers.Props.C34_declarations_use_all_options",
    "Chandeliers.Props.C34_undeclared_rejected"
   ],
   "note": ""
  },
  {
   "property": "C35",
   "status": "proved",
   "theorems": [
    "Chandeliers.Props.C35_main_counts",
    "Chandeliers.Props.C35_main_panics",
    "Chandeliers.Props.C35_main_zero_forever",
    "Chandeliers.Props.C35_program",
    "Chandeliers.Props.C35_universal"
   ],
   "note": ""
  },
  {
   "property": "C36",
   "status": "proved",
   "theorems": [
    "Chandeliers.Props.C36_isolated"
   ],
   "note": ""
  },
  {
   "property": "C37",
   "status": "proved",
   "theorems": [
    "Chandeliers.Props.C37_decl",
    "Chandeliers.Props.C37_fatal_iff",
    "Chandeliers.Props.C37_lost_errors",
    "Chandeliers.Props.C37_reports_in_order",
    "Chandeliers.Props.C37_scope_runs_all"
   ],
   "note": ""
  },
  {
   "property": "C38",
   "status": "proved",
   "theorems": [
    "Chandeliers.Props.C38_export_transparent",
    "Chandeliers.Props.C38_extern_transparent"
   ],
   "note": ""
  },
  {
   "property": "C39",
   "status": "proved",
   "theorems": [
    "Chandeliers.Props.C39_raw_clash_counterexample",
    "Chandeliers.Props.C39_sanitized_injective",
    "Chandeliers.Props.C39_uids_distinct"
   ],
   "note": "Sanitised identifiers. C39_raw_clash_counterexample shows that raw names of exported items may clash with them."
  },
  {
   "property": "C40",
   "status": "proved",
   "theorems": [
    "Chandeliers.Props.C40_global",
    "Chandeliers.Props.C40_local",
    "Chandeliers.Props.C40_scope"
   ],
   "note": ""
  },
  {
   "property": "C41",
   "status": "proved",
   "theorems": [
    "Chandeliers.Props.C41_eq_ignores_spans",
    "Chandeliers.Props.C41_hash_ignores_spans",
    "Chandeliers.Props.C41_lookup_ignores_spans",
    "Chandeliers.Props.C41_map_keeps_span",
    "Chandeliers.Props.C41_respan",
    "Chandeliers.Props.C41_unwrap"
   ],
   "note": ""
  },
  {
   "property": "C42",
   "status": "partial",
   "theorems": [
    "Chandeliers.Props.C42_counterexample_arrow",
    "Chandeliers.Props.C42_modes_partial",
    "Chandeliers.Props.C42_prompt_partial",
    "Chandeliers.Props.C42_source_partial"
   ],
   "note": "C42_modes_partial: the left operands of arrows are initialised (F9) and rustc accepts the emitted code. C42_prompt_partial: both nodes in one program (Regular, PromptNode). C42_source_partial: the same with conditions on the source only (Orderly, PromptNode). False beyond that: C42_counterexample_arrow."
  },
  {
   "property": "C43",
   "status": "proved",
   "theorems": [
    "Chandeliers.Props.C43_positivity",
    "Chandeliers.Props.C43_typecheck"
   ],
   "note": ""
  },
  {
   "property": "C44",
   "status": "proved",
   "theorems": [
    "Chandeliers.Props.C44_constant",
    "Chandeliers.Props.C44_expression",
    "Chandeliers.Props.C44_node",
    "Chandeliers.Props.C44_program",
    "Chandeliers.Props.C44_unique_type"
   ],
   "note": ""
  },
  {
   "property": "C45",
   "status": "proved",
   "theorems": [
    "Chandeliers.Props.C45_runs_are_solutions",
    "Chandeliers.Props.C45_unique_solution"
   ],
   "note": "For nodes wired as the translation does (Wired) and sorted; C26 shows that the scheduler sorts."
  },
  {
   "property": "C46",
   "status": "proved",
   "theorems": [
    "Chandeliers.Props.C46_declared",
    "Chandeliers.Props.C46_exact",
    "Chandeliers.Props.C46_lenient",
    "Chandeliers.Props.C46_refusals_report",
    "Chandeliers.Props.C46_registers"
   ],
   "note": "Names of variables are assumed distinct, as the type checker ensures. A report about the sides of a delayed arrow does not make the check fail (C46_lenient; finding F11)."
  },
  {
   "property": "C47",
   "status": "proved",
   "theorems": [
    "Chandeliers.Props.C47_constants",
    "Chandeliers.Props.C47_items",
    "Chandeliers.Props.C47_node",
    "Chandeliers.Props.C47_program",
    "Chandeliers.Props.C47_text"
   ],
   "note": "Default translation mode, whole programs; external items are any machines and the arithmetic is abstract. The uniqueness of solutions is in C45. C47_node is the same for one node on its own."
  },
  {
   "property": "C48",
   "status": "proved",
   "theorems": [
    "Chandeliers.Props.C48_counterexample_attribute",
    "Chandeliers.Props.C48_counterexample_float",
    "Chandeliers.Props.C48_counterexample_int",
    "Chandeliers.Props.C48_counterexample_negative",
    "Chandeliers.Props.C48_counterexample_twice",
    "Chandeliers.Props.C48_counterexample_undeclared",
    "Chandeliers.Props.C48_counterexample_unused",
    "Chandeliers.Props.C48_no_panic"
   ],
   "note": "Both translation modes, whole programs. The seven C48_counterexample theorems show that each condition is needed."
  },
  {
   "property": "C49",
   "status": "proved",
   "theorems": [
    "Chandeliers.Props.C49_expand",
    "Chandeliers.Props.C49_expression",
    "Chandeliers.Props.C49_expression_unambiguous",
    "Chandeliers.Props.C49_grammar",
    "Chandeliers.Props.C49_unambiguous"
   ],
   "note": "Whole programs, from token trees; the grammar is an inductive relation in Spec/Grammar."
  },
  {
   "property": "C50",
   "status": "proved",
   "theorems": [
    "Chandeliers.Props.C50_accepted",
    "Chandeliers.Props.C50_any_order",
    "Chandeliers.Props.C50_refused",
    "Chandeliers.Props.C50_text"
   ],
   "note": "Whole programs, both modes. Type variables are assumed distinct in each declaration, as in C27 (finding F6)."
  },
  {
   "property": "C51",
   "status": "proved",
   "theorems": [
    "Chandeliers.Props.C51_default",
    "Chandeliers.Props.C51_extern",
    "Chandeliers.Props.C51_history",
    "Chandeliers.Props.C51_instant",
    "Chandeliers.Props.C51_only_traced",
    "Chandeliers.Props.C51_prefix",
    "Chandeliers.Props.C51_same_runs",
    "Chandeliers.Props.C51_silent_when_absent",
    "Chandeliers.Props.C51_transparent"
   ],
   "note": "Formats mention only variables of the node (others are refused by rustc); Display of floats is abstract. C51_history is for nodes without registers, C51_instant for all."
  },
  {
   "property": "C52",
   "status": "proved",
   "theorems": [
    "Chandeliers.Props.C52_conversion",
    "Chandeliers.Props.C52_library",
    "Chandeliers.Props.C52_random"
   ],
   "note": "What the conversions of Rust compute and the numbers drawn are parameters."
  },
  {
   "property": "C53",
   "status": "proved",
   "theorems": [
    "Chandeliers.Props.C53_node",
    "Chandeliers.Props.C53_program",
    "Chandeliers.Props.C53_wrappers"
   ],
   "note": "Behaviour is observed on runs from the initial state; panics may be compared by kind or not at all."
  },
  {
   "property": "C54",
   "status": "proved",
   "theorems": [
    "Chandeliers.Props.C54_called_test",
    "Chandeliers.Props.C54_needs",
    "Chandeliers.Props.C54_offers",
    "Chandeliers.Props.C54_once",
    "Chandeliers.Props.C54_pub_trait",
    "Chandeliers.Props.C54_resolves",
    "Chandeliers.Props.C54_test_called",
    "Chandeliers.Props.C54_traced_clash",
    "Chandeliers.Props.C54_traced_constant",
    "Chandeliers.Props.C54_two_mains"
   ],
   "note": "Name resolution is modelled in Spec/Emit; local use declarations, macro hygiene and privacy at the place of use are not. Sensible lists the collisions that the compiler does not report; that each matters is shown for duplicate items, calls to tests and traced variables."
  },
  {
   "property": "C55",
   "status": "proved",
   "theorems": [
    "Chandeliers.Props.C55_definitions",
    "Chandeliers.Props.C55_differ",
    "Chandeliers.Props.C55_plain",
    "Chandeliers.Props.C55_true",
    "Chandeliers.Props.C55_unknown_name",
    "Chandeliers.Props.C55_unknown_node"
   ],
   "note": "Wording, spans and suggestions of the messages are not modelled; syntax errors are not covered."
  },
  {
   "property": "C56",
   "status": "proved",
   "theorems": [
    "Chandeliers.Props.C56_node",
    "Chandeliers.Props.C56_outputs",
    "Chandeliers.Props.C56_program"
   ],
   "note": "Rust overflow checks are a parameter of the arithmetic; an overflow in a constant is refused in both builds."
  },
  {
   "property": "C57",
   "status": "proved",
   "theorems": [
    "Chandeliers.Props.C57_map",
    "Chandeliers.Props.C57_node",
    "Chandeliers.Props.C57_nothing_new",
    "Chandeliers.Props.C57_program",
    "Chandeliers.Props.C57_program_tidy"
   ],
   "note": "External generic nodes are assumed to be parametric; so is that registers are flat and clocks are inputs under #[universal_pre], see F4 and F10."
  },
  {
   "property": "C58",
   "status": "proved",
   "theorems": [
    "Chandeliers.Props.C58_code",
    "Chandeliers.Props.C58_items",
    "Chandeliers.Props.C58_part",
    "Chandeliers.Props.C58_remove",
    "Chandeliers.Props.C58_union"
   ],
   "note": "No declaration repeats a type variable among its #[generic] attributes, see F6."
  },
  {
   "property": "C59",
   "status": "proved",
   "theorems": [
    "Chandeliers.Props.C59_equations_order",
    "Chandeliers.Props.C59_node",
    "Chandeliers.Props.C59_panics",
    "Chandeliers.Props.C59_program",
    "Chandeliers.Props.C59_text",
    "Chandeliers.Props.C59_tidy",
    "Chandeliers.Props.C59_unique"
   ],
   "note": "That rustc accepts the code is a hypothesis of the node and program theorems; TidyProg is a condition on the source that implies it, see F4 and F10."
  },
  {
   "property": "C60",
   "status": "proved",
   "theorems": [
    "Chandeliers.Props.C60_exchange",
    "Chandeliers.Props.C60_fold",
    "Chandeliers.Props.C60_not_constants",
    "Chandeliers.Props.C60_parentheses",
    "Chandeliers.Props.C60_prefix",
    "Chandeliers.Props.C60_unfold"
   ],
   "note": "The definition of a variable may only get under a delay, without registers, when it is nil before the first instant (finding F24); C60_exchange and C60_fold ask that both programs are accepted."
  },
  {
   "property": "C61",
   "status": "proved",
   "theorems": [
    "Chandeliers.Props.C61_fewer_panics",
    "Chandeliers.Props.C61_remove"
   ],
   "note": "Nodes called by removed equations stay declared; rustc warnings on unused variables are not modelled."
  },
  {
   "property": "C62",
   "status": "proved",
   "theorems": [
    "Chandeliers.Props.C62_rename"
   ],
   "note": "Names that Rust reserves are not excluded by the model of linking; see DESIGN.md for hygiene."
  },
  {
   "property": "C63",
   "status": "proved",
   "theorems": [
    "Chandeliers.Props.C63_inline",
    "Chandeliers.Props.C63_sampled_differs",
    "Chandeliers.Props.C63_universal"
   ],
   "note": "Both nodes are in one program; the conditions on the program are those of C30_source_partial. C63_sampled_differs shows that a call that is not made at every instant cannot be replaced."
  },
  {
   "property": "C64",
   "status": "proved",
   "theorems": [
    "Chandeliers.Props.C64_emitted",
    "Chandeliers.Props.C64_export",
    "Chandeliers.Props.C64_runs",
    "Chandeliers.Props.C64_source",
    "Chandeliers.Props.C64_unit_output"
   ],
   "note": "C64_emitted needs no types, but external nodes that take and return what they are declared to; C64_runs and C64_source replace that by the types of C28. C64_unit_output is the case that is excluded. Drivers, traces and constants are modelled by their meaning only."
  },
  {
   "property": "C65",
   "status": "proved",
   "theorems": [
    "Chandeliers.Props.C65_imports",
    "Chandeliers.Props.C65_join",
    "Chandeliers.Props.C65_split"
   ],
   "note": "The items around an invocation are given by Offers; that they are visible in Rust (#[export], paths) is not modelled. No declaration repeats a type variable among its #[generic] attributes, see F6."
  },
  {
   "property": "C66",
   "status": "proved",
   "theorems": [
    "Chandeliers.Props.C66_emitted",
    "Chandeliers.Props.C66_text"
   ],
   "note": "Composes C28, C47, C48, C49, C50, C59 and C64. Nodes with #[universal_pre] must satisfy TidyProg (guards are inputs, no tuples of one element), see F4 and F10."
  },
  {
   "property": "C67",
   "status": "proved",
   "theorems": [
    "Chandeliers.Props.C67_laws",
    "Chandeliers.Props.C67_not_arrow_assoc",
    "Chandeliers.Props.C67_not_arrow_operator",
    "Chandeliers.Props.C67_not_fby_universal",
    "Chandeliers.Props.C67_one_way",
    "Chandeliers.Props.C67_values"
   ],
   "note": "Programs satisfy DistinctGenerics and TidyProg as in C60. Two panics on a same history may be different panics. Laws of Law that are not in Equation are one-way: from right to left the result may be refused."
  },
  {
   "property": "C68",
   "status": "proved",
   "theorems": [
    "Chandeliers.Props.C68_accepted",
    "Chandeliers.Props.C68_capture",
    "Chandeliers.Props.C68_relabel"
   ],
   "note": "The link half needs DistinctGenerics and TidyProg as in C60; two panics on a same history may be different panics. C68_capture shows why names must stay different inside a node."
  },
  {
   "property": "C69",
   "status": "proved",
   "theorems": [
    "Chandeliers.Props.C69_const_unique",
    "Chandeliers.Props.C69_constant",
    "Chandeliers.Props.C69_export",
    "Chandeliers.Props.C69_extern",
    "Chandeliers.Props.C69_method_unique",
    "Chandeliers.Props.C69_node",
    "Chandeliers.Props.C69_panics",
    "Chandeliers.Props.C69_program",
    "Chandeliers.Props.C69_source",
    "Chandeliers.Props.C69_written"
   ],
   "note": "The text of the values of constants and of the bodies of the methods step; the items around them, traces and types are modelled by their meaning only. C69_source has the hypotheses of C64_source."
  },
  {
   "property": "C70",
   "status": "proved",
   "theorems": [
    "Chandeliers.Props.C70_add",
    "Chandeliers.Props.C70_adder",
    "Chandeliers.Props.C70_addition",
    "Chandeliers.Props.C70_addition_trace",
    "Chandeliers.Props.C70_assoc",
    "Chandeliers.Props.C70_cast",
    "Chandeliers.Props.C70_constants",
    "Chandeliers.Props.C70_count",
    "Chandeliers.Props.C70_counters",
    "Chandeliers.Props.C70_counting",
    "Chandeliers.Props.C70_counting_on_count",
    "Chandeliers.Props.C70_delay",
    "Chandeliers.Props.C70_failing",
    "Chandeliers.Props.C70_fbys",
    "Chandeliers.Props.C70_features",
    "Chandeliers.Props.C70_fib",
    "Chandeliers.Props.C70_fizzbuzz",
    "Chandeliers.Props.C70_format",
    "Chandeliers.Props.C70_prev",
    "Chandeliers.Props.C70_race",
    "Chandeliers.Props.C70_sums",
    "Chandeliers.Props.C70_swap",
    "Chandeliers.Props.C70_ten",
    "Chandeliers.Props.C70_trait",
    "Chandeliers.Props.C70_zero_then_one"
   ],
   "note": "A node written in Rust gives the same answers to all its instances, so the driver of the adder is fed with three equal bits; C70_adder is about all inputs of the adders themselves. Comparisons with NaN are left out of C70_counters by its hypothesis. C70_fizzbuzz, C70_zero_then_one, C70_format and C70_addition_trace are about the compiled nodes with their traces (the model of C51), not about the emitted text. C70_cast and C70_failing suppose that 5 as f64 is greater than 0.0, since floats are left open in the model."
  }
 ]
}