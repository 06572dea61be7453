{
 "claims": [
  {
   "property": "C01",
   "status": "proved",
   "theorems": [
    "Verif.BinarySearch.C01_int32_bsearch"
   ],
   "note": ""
  },
  {
   "property": "C02",
   "status": "proved",
   "theorems": [
    "Verif.BinarySearch.C02_bit_pattern_order"
   ],
   "note": ""
  },
  {
   "property": "C03",
   "status": "proved",
   "theorems": [
    "Verif.BinarySearch.C03_float32_bsearch"
   ],
   "note": ""
  },
  {
   "property": "C04",
   "status": "proved",
   "theorems": [
    "Verif.BinarySearch.C04_topk_mask",
    "Verif.BinarySearch.C04_topk_count",
    "Verif.BinarySearch.C04_neg_inf_replaced"
   ],
   "note": "C04_neg_inf_replaced records that -inf entries are always overwritten, also when k exceeds the number of finite entries."
  },
  {
   "property": "C05",
   "status": "proved",
   "theorems": [
    "Verif.BinarySearch.C05_topp_mask"
   ],
   "note": "The probability sum is an abstract monotone function; floating-point summation is in the trusted base."
  },
  {
   "property": "C06",
   "status": "proved",
   "theorems": [
    "Verif.Sampling.C06_termination",
    "Verif.Sampling.C06_rows",
    "Verif.Sampling.C06_num_decodes",
    "Verif.Sampling.C06_gap_prompt_lost",
    "Verif.Sampling.C06_zero_steps"
   ],
   "note": "For right-padded prompts, eos != 0 and a start index below the limit; the model call and the sampler are an arbitrary function of the loop state; log-probabilities add exactly. C06_gap_prompt_lost: a prompt with interior padding loses its later tokens. C06_zero_steps: with max_decode_steps=0 one token is still generated."
  },
  {
   "property": "C07",
   "status": "proved",
   "theorems": [
    "Verif.TopK.C07_top_k_two_stage",
    "Verif.TopK.C07_any_lanes"
   ],
   "note": "lax.top_k is modelled from its documentation (value descending, lower index first); no NaN."
  },
  {
   "property": "C08",
   "status": "proved",
   "theorems": [
    "Verif.Beam.C08_bound",
    "Verif.Beam.C08_early_stop",
    "Verif.Beam.C08_batch",
    "Verif.Beam.C08_length",
    "Verif.Beam.C08_needs_length",
    "Verif.Beam.brevity_good"
   ],
   "note": "Ordered-field arithmetic; log-probabilities at most 0, any brevity penalty that is positive and monotone (alpha >= 0). Futures within the maximal length of the row; C08_needs_length shows that the test is not valid beyond it, where a row with a longer prompt than another one can get."
  },
  {
   "property": "C09",
   "status": "proved",
   "theorems": [
    "Verif.Align.C09_right_align",
    "Verif.Align.C09_left_align",
    "Verif.Align.C09_round_trip"
   ],
   "note": "The literal round trip is for rows that start with a token; leading padding such as the BOS zero moves to the end of the row."
  },
  {
   "property": "C10",
   "status": "proved",
   "theorems": [
    "Verif.Align.C10_remove_prefix"
   ],
   "note": ""
  },
  {
   "property": "C100",
   "status": "proved",
   "theorems": [
    "Verif.ScalableT5.C100_scan",
    "Verif.ScalableT5.C100_scan_decode",
    "Verif.ScalableT5.C100_stack",
    "Verif.ScalableT5.C100_t5",
    "Verif.ScalableT5.C100_t5_decode",
    "Verif.ScalableT5.C100_same_logits",
    "Verif.ScalableT5.C100_packed",
    "Verif.ScalableT5.C100_decode",
    "Verif.ScalableT5.C100_score"
   ],
   "note": "Real arithmetic with an exponential that underflows, parameters whose attention logits stay below the mask bias. nn.scan is trusted to run the layers in order on slices of the stacked arrays (param_scan_axis=1); remat is left out."
  },
  {
   "property": "C101",
   "status": "proved",
   "theorems": [
    "Verif.GpuT5.C101_same",
    "Verif.GpuT5.C101_decode",
    "Verif.GpuT5.C101_convert",
    "Verif.GpuT5.C101_init",
    "Verif.GpuT5.C101_outside"
   ],
   "note": "Real arithmetic. Gathering out of bounds clamps and negative indices count from the end, as in jax."
  },
  {
   "property": "C102",
   "status": "proved",
   "theorems": [
    "Verif.TrainJob.C102_uninterrupted",
    "Verif.TrainJob.C102_restart",
    "Verif.TrainJob.C102_monotone",
    "Verif.TrainJob.C102_kept",
    "Verif.TrainJob.C102_finishes",
    "Verif.TrainJob.C102_preempted",
    "Verif.TrainJob.C102_cluster"
   ],
   "note": "Puts together the models of C20-C22, C34, C42, C58 and C97. The file formats are a pair of a writer and a reader that returns what was written (C23, C24, C29 and C64 are about those); a step increments train_state.step. C102_preempted is the exception. Local file systems, where rename is atomic."
  },
  {
   "property": "C103",
   "status": "proved",
   "theorems": [
    "Verif.SampleLaw.C103_token",
    "Verif.SampleLaw.C103_joint",
    "Verif.SampleLaw.C103_sequence",
    "Verif.SampleLaw.C103_found",
    "Verif.SampleLaw.C103_log_prob",
    "Verif.SampleLaw.C103_t5"
   ],
   "note": "The random numbers of jax.random.categorical are assumed to be independent standard Gumbel variables for different iterations, rows and tokens; that the argmax then has the softmax distribution is proved. Real arithmetic; one temperature for the batch (with an array of temperatures the decodes of an example are identical, C92_identical)."
  },
  {
   "property": "C104",
   "status": "proved",
   "theorems": [
    "Verif.MicroLoss.C104_step",
    "Verif.MicroLoss.C104_constant",
    "Verif.MicroLoss.C104_scaled",
    "Verif.MicroLoss.C104_num_total",
    "Verif.MicroLoss.C104_equal_rows",
    "Verif.MicroLoss.C104_row_weights",
    "Verif.MicroLoss.C104_str",
    "Verif.MicroLoss.C104_differs"
   ],
   "note": "Real arithmetic, no dropout, no mutables; jax.grad is the derivative. A factor 0 (a microbatch without target tokens) gives 0 instead of the NaN of floating point. C104_differs shows that the gradient changes with each of the special factors."
  },
  {
   "property": "C105",
   "status": "proved",
   "theorems": [
    "Verif.ArrT5.C105_dense",
    "Verif.ArrT5.C105_dense_shape",
    "Verif.ArrT5.C105_params",
    "Verif.ArrT5.C105_apply",
    "Verif.ArrT5.C105_missing_segments",
    "Verif.ArrT5.C105_batch",
    "Verif.ArrT5.C105_decode",
    "Verif.ArrT5.C105_cached"
   ],
   "note": "The array operations (broadcasting, reshape, dot_general, einsum, ...) are modelled after their documentation; real arithmetic, no dropout. C105_params shows that parameter arrays of the declared shapes are always those of a network as in C93. With it the theorems about one row (C93, C94, C96) hold for batches."
  },
  {
   "property": "C106",
   "status": "proved",
   "theorems": [
    "Verif.InteractiveEval.C106_evaluate",
    "Verif.InteractiveEval.C106_scores_only",
    "Verif.InteractiveEval.C106_bytes",
    "Verif.InteractiveEval.C106_postprocessor",
    "Verif.InteractiveEval.C106_signature",
    "Verif.InteractiveEval.C106_lengths",
    "Verif.InteractiveEval.C106_hosts",
    "Verif.InteractiveEval.C106_dataset",
    "Verif.InteractiveEval.C106_invalid",
    "Verif.InteractiveEval.C106_train_batch"
   ],
   "note": "The model's functions on batches and the preprocessors are parameters; texts are valid UTF-8; eager execution. C106_scores_only, C106_bytes, C106_postprocessor and C106_hosts are findings."
  },
  {
   "property": "C107",
   "status": "proved",
   "theorems": [
    "Verif.ExportScore.C107_row",
    "Verif.ExportScore.C107_served",
    "Verif.ExportScore.C107_independent"
   ],
   "note": "The tokenizer is not modelled; the arrays made by the preprocessor (C67) are run through the network on arrays (C105), and C93 removes padding. Real arithmetic; the exponential underflows to 0 at the mask bias as in C93."
  },
  {
   "property": "C108",
   "status": "proved",
   "theorems": [
    "Verif.PredictIndep.C108_sampling",
    "Verif.PredictIndep.C108_t5",
    "Verif.PredictIndep.C108_served",
    "Verif.PredictIndep.C108_short_predictions"
   ],
   "note": "C108_sampling is about any model with caches. The network acts row by row (C105 is the link to arrays). C108_short_predictions is a finding. Real arithmetic as in C93."
  },
  {
   "property": "C109",
   "status": "proved",
   "theorems": [
    "Verif.OfflineInfer.C109_scores",
    "Verif.OfflineInfer.C109_predictions",
    "Verif.OfflineInfer.C109_runs"
   ],
   "note": "The feature converter is part of seqio and modelled after its documentation; composes C36, C107 and C108. Greedy choice is any choice of tokens that is the same function for all rows. Real arithmetic as in C93."
  },
  {
   "property": "C11",
   "status": "proved",
   "theorems": [
    "Verif.Masks.C11_decoder_mask",
    "Verif.Masks.C11_causal_stack"
   ],
   "note": "C11_causal_stack lifts the mask to any number of layers, each layer being an arbitrary function that respects its mask row."
  },
  {
   "property": "C110",
   "status": "proved",
   "theorems": [
    "Verif.BeamIndep.C110_beam",
    "Verif.BeamIndep.C110_t5",
    "Verif.BeamIndep.C110_infer",
    "Verif.BeamIndep.C110_ties",
    "Verif.BeamIndep.C110_min_log_prob",
    "Verif.BeamIndep.C110_longer_prompt"
   ],
   "note": "C110_ties, C110_min_log_prob and C110_longer_prompt are findings with concrete runs. Scores are real numbers, so ties by rounding are not covered. Composes C08, C36, C105 and C108."
  },
  {
   "property": "C111",
   "status": "proved",
   "theorems": [
    "Verif.LmPredict.C111_decodes",
    "Verif.LmPredict.C111_best",
    "Verif.LmPredict.C111_greedy",
    "Verif.LmPredict.C111_sampled",
    "Verif.LmPredict.C111_score"
   ],
   "note": "Composes C10, C92, C95 and C103. One temperature for the batch. Random numbers as in C103, real arithmetic as in C93. With max_decode_steps=0 one token is still generated (C06_zero_steps), so the limit is at least 1."
  },
  {
   "property": "C112",
   "status": "proved",
   "theorems": [
    "Verif.ArrLm.C112_params",
    "Verif.ArrLm.C112_apply",
    "Verif.ArrLm.C112_batch",
    "Verif.ArrLm.C112_predict",
    "Verif.ArrLm.C112_cached"
   ],
   "note": "Array operations as in C105, and an einsum in which a dimension of size 1 is broadcast, as XLA does for the label 'b' of the biases. Composes C95."
  },
  {
   "property": "C113",
   "status": "proved",
   "theorems": [
    "Verif.Dropout.C113_unbiased",
    "Verif.Dropout.C113_unbiased_attention",
    "Verif.Dropout.C113_off",
    "Verif.Dropout.C113_same_logits",
    "Verif.Dropout.C113_causal",
    "Verif.Dropout.C113_packed",
    "Verif.Dropout.C113_expected_loss",
    "Verif.Dropout.C113_gradient",
    "Verif.Dropout.C113_dropped_output",
    "Verif.Dropout.C113_dropped_input",
    "Verif.Dropout.C113_dropped_self",
    "Verif.Dropout.C113_dropped_cross",
    "Verif.Dropout.C113_dropped_mlp",
    "Verif.Dropout.C113_dropped_encoder",
    "Verif.Dropout.C113_dropped_layers",
    "Verif.Dropout.C113_output_sum",
    "Verif.Dropout.C113_enabled",
    "Verif.Dropout.C113_lm_off",
    "Verif.Dropout.C113_lm_same_logits",
    "Verif.Dropout.C113_lm_causal",
    "Verif.Dropout.C113_lm_expected_loss",
    "Verif.Dropout.C113_lm_dropped",
    "Verif.Dropout.C113_lm_dropped_layers",
    "Verif.Dropout.C113_lm_enabled"
   ],
   "note": "The bits are independent with probability 1 - rate, one for every entry of the mask arrays that the code makes. How flax derives the keys of the modules is not modelled. Real arithmetic as in C93. The expectations agree, not the distributions: examples packed in a row share the masks of the features."
  },
  {
   "property": "C114",
   "status": "proved",
   "theorems": [
    "Verif.InitT5.C114_t5",
    "Verif.InitT5.C114_lm",
    "Verif.InitT5.C114_raises",
    "Verif.InitT5.C114_axes",
    "Verif.InitT5.C114_partition",
    "Verif.InitT5.C114_even",
    "Verif.InitT5.C114_apply",
    "Verif.InitT5.C114_adafactor",
    "Verif.InitT5.C114_import_t5",
    "Verif.InitT5.C114_import_lm"
   ],
   "note": "init runs on shapes; initial values, dtypes and flax's own bookkeeping are not modelled. An additional rule for 'embed' can change the placement of kernels with the rules for two model dimensions and one parameter dimension, therefore the hypothesis. Composes C49, C48, C75 and C105."
  },
  {
   "property": "C115",
   "status": "proved",
   "theorems": [
    "Verif.AdafactorStack.C115_layers",
    "Verif.AdafactorStack.C115_matrices",
    "Verif.AdafactorStack.C115_small_differs",
    "Verif.AdafactorStack.C115_unfactored_differs"
   ],
   "note": "C115_layers is for any arithmetic, C115_matrices for real arithmetic, where the names v_row and v_col of the two accumulators may be exchanged. C115_small_differs and C115_unfactored_differs are findings with concrete runs and show that the exceptions are necessary."
  },
  {
   "property": "C116",
   "status": "proved",
   "theorems": [
    "Verif.InitScalable.C116_separate",
    "Verif.InitScalable.C116_stacked",
    "Verif.InitScalable.C116_axis",
    "Verif.InitScalable.C116_segments",
    "Verif.InitScalable.C116_names",
    "Verif.InitScalable.C116_layers",
    "Verif.InitScalable.C116_others",
    "Verif.InitScalable.C116_size",
    "Verif.InitScalable.C116_partition",
    "Verif.InitScalable.C116_factored"
   ],
   "note": "init runs on shapes as in C114. nn.scan and scan_with_axes are modelled from the flax source for a param_scan_axis that is not negative."
  },
  {
   "property": "C117",
   "status": "proved",
   "theorems": [
    "Verif.ScanTrain.C117_train",
    "Verif.ScanTrain.C117_gradients",
    "Verif.ScanTrain.C117_logits",
    "Verif.ScanTrain.C117_networks",
    "Verif.ScanTrain.C117_trees"
   ],
   "note": "Composes C115, C116 and C59. Real arithmetic; gradients are partial derivatives. The same hyper-parameters for all parameters. C117_trees shows that parameters and gradients of the assumed kind exist for every loss."
  },
  {
   "property": "C118",
   "status": "proved",
   "theorems": [
    "Verif.PackedTrain.C118_train",
    "Verif.PackedTrain.C118_lm_train",
    "Verif.PackedTrain.C118_microbatches",
    "Verif.PackedTrain.C118_features"
   ],
   "note": "Composes C96, C104 and C57. Hypotheses as in C96, for the parameters near each visited state; the microbatched version also needs differentiable logits there. Metrics are loss, z-loss, learning rate and any weight metrics. The iterators' rests are not compared."
  },
  {
   "property": "C119",
   "status": "proved",
   "theorems": [
    "Verif.MoeTrain.C119_step",
    "Verif.MoeTrain.C119_train",
    "Verif.MoeTrain.C119_default",
    "Verif.MoeTrain.C119_prefix",
    "Verif.MoeTrain.C119_dots",
    "Verif.MoeTrain.C119_same",
    "Verif.MoeTrain.C119_no_parameters",
    "Verif.MoeTrain.C119_adafactor"
   ],
   "note": "Composes C50, C57 and C91. Exact arithmetic. Regular expressions are modelled for literal characters, '.' and '.*'. C119_no_parameters is a finding. C119_adafactor is for one parameter with real arithmetic and without clipping of the global norm."
  },
  {
   "property": "C12",
   "status": "proved",
   "theorems": [
    "Verif.RelPos.C12_unidirectional",
    "Verif.RelPos.C12_bidirectional",
    "Verif.RelPos.C12_bias",
    "Verif.RelPos.exactLog_logLike"
   ],
   "note": "num_buckets >= 2 (>= 4 bidirectional), max_distance above the exact range. The float logarithm is any function with three stated properties; exact arithmetic has them."
  },
  {
   "property": "C120",
   "status": "proved",
   "theorems": [
    "Verif.PackedMetrics.C120_same",
    "Verif.PackedMetrics.C120_accuracy",
    "Verif.PackedMetrics.C120_layout",
    "Verif.PackedMetrics.C120_lm"
   ],
   "note": "Composes C96 and C77. Real arithmetic, no dropout. Every piece of the period (a batch or microbatch) has at least one example; rows may be empty. `timing/seqs` counts rows (C120_layout)."
  },
  {
   "property": "C121",
   "status": "proved",
   "theorems": [
    "Verif.ExportFront.C121_dual",
    "Verif.ExportFront.C121_dual_texts",
    "Verif.ExportFront.C121_process",
    "Verif.ExportFront.C121_process_fails",
    "Verif.ExportFront.C121_process_filter",
    "Verif.ExportFront.C121_process_expand",
    "Verif.ExportFront.C121_describe",
    "Verif.ExportFront.C121_warmup",
    "Verif.ExportFront.C121_dirs",
    "Verif.ExportFront.C121_dirs_fails",
    "Verif.ExportFront.C121_dirs_distinct",
    "Verif.ExportFront.C121_fake",
    "Verif.ExportFront.C121_poly"
   ],
   "note": "Tokenizers, task preprocessors and the feature converter are parameters. C121_process_filter and C121_process_expand are findings, as is the refusal of dimensions that are 0 in C121_fake. Which characters are digits is a parameter."
  },
  {
   "property": "C122",
   "status": "proved",
   "theorems": [
    "Verif.ConvertTf.C122_direct",
    "Verif.ConvertTf.C122_convert",
    "Verif.ConvertTf.C122_same",
    "Verif.ConvertTf.C122_missing",
    "Verif.ConvertTf.C122_t5",
    "Verif.ConvertTf.C122_lm"
   ],
   "note": "Composes C49, C64 and C114. The imported arrays must have the dtypes of the train state for a conversion (tensorstore writes only that), keys have no slash and no dot, every leaf of the train state is an array. Reading TensorFlow files is not modelled."
  },
  {
   "property": "C123",
   "status": "proved",
   "theorems": [
    "Verif.StartState.C123_resume",
    "Verif.StartState.C123_initial",
    "Verif.StartState.C123_scratch",
    "Verif.StartState.C123_initializer",
    "Verif.StartState.C123_initializer_conv",
    "Verif.StartState.C123_orbax_resume",
    "Verif.StartState.C123_never_resumes",
    "Verif.StartState.C123_orbax_initial",
    "Verif.StartState.C123_orbax_dataset",
    "Verif.StartState.C123_eval",
    "Verif.StartState.C123_export",
    "Verif.StartState.C123_interactive",
    "Verif.StartState.C123_map_resumable",
    "Verif.StartState.C123_map_first",
    "Verif.StartState.C123_finetune",
    "Verif.StartState.C123_twice"
   ],
   "note": "Reading one checkpoint is a parameter of all theorems but C123_finetune, which composes with C64. The exceptions of C123_initializer_conv, C123_never_resumes, C123_orbax_dataset, C123_interactive (second part) and C123_twice are findings and limits. The directory of the job holds T5X checkpoints."
  },
  {
   "property": "C124",
   "status": "proved",
   "theorems": [
    "Verif.HybridMesh.C124_hybrid",
    "Verif.HybridMesh.C124_slice",
    "Verif.HybridMesh.C124_gpu",
    "Verif.HybridMesh.C124_gpu_hosts",
    "Verif.HybridMesh.C124_tpu_hosts",
    "Verif.HybridMesh.C124_cpu",
    "Verif.HybridMesh.C124_default"
   ],
   "note": "jax's create_hybrid_device_mesh is described as documented, with the arrangement of the devices of one group as a parameter (C124_hybrid and C124_slice say what follows from it); it is trusted. C124_gpu_hosts and C124_tpu_hosts give the hypotheses of C41 and C42."
  },
  {
   "property": "C125",
   "status": "proved",
   "theorems": [
    "Verif.JobFiles.C125_tmp",
    "Verif.JobFiles.C125_reads_back",
    "Verif.JobFiles.C125_attempt",
    "Verif.JobFiles.C125_job",
    "Verif.JobFiles.C125_restart",
    "Verif.JobFiles.C125_latest",
    "Verif.JobFiles.C125_finishes",
    "Verif.JobFiles.C125_gpu",
    "Verif.JobFiles.C125_rounding"
   ],
   "note": "Composes C102 with C64, C123 and C124: the pair of writer and reader of C102 is that of C64. A tensorstore array is one file. C125_rounding is the refutation without the hypothesis on the dtype."
  },
  {
   "property": "C126",
   "status": "proved",
   "theorems": [
    "Verif.TrainedJob.C126_stable",
    "Verif.TrainedJob.C126_job",
    "Verif.TrainedJob.C126_latest",
    "Verif.TrainedJob.C126_packed"
   ],
   "note": "Composes C125 with C52, C30, C57 and C118. How parameters, optimizer state and mutables are laid out in arrays is a parameter (a codec that loses nothing); how the shards' batches are put together to a global batch is a parameter. C126_packed is for models without mutables and gradients over the reals."
  },
  {
   "property": "C127",
   "status": "proved",
   "theorems": [
    "Verif.TrainInfer.C127_part",
    "Verif.TrainInfer.C127_restore",
    "Verif.TrainInfer.C127_scores",
    "Verif.TrainInfer.C127_packed"
   ],
   "note": "Composes C126 with C64, C52, C36 and C109. How parameters are laid out in arrays and how the network reads them from the nested dict are parameters; empty dicts in the template of the inference job are excluded."
  },
  {
   "property": "C128",
   "status": "proved",
   "theorems": [
    "Verif.AdafactorJob.C128_step",
    "Verif.AdafactorJob.C128_codec",
    "Verif.AdafactorJob.C128_keeps",
    "Verif.AdafactorJob.C128_run",
    "Verif.AdafactorJob.C128_job",
    "Verif.AdafactorJob.C128_inference",
    "Verif.AdafactorJob.C128_empty"
   ],
   "note": "Composes C48, C59 and C126; gives the hypothesis of C126 and C127 on the optimizer. Arrays are real numbers with a dtype, casts change the dtype only. C128_empty shows that the hypothesis on empty dicts is needed."
  },
  {
   "property": "C129",
   "status": "proved",
   "theorems": [
    "Verif.ModelInfo.C129_info",
    "Verif.ModelInfo.C129_no_parameters",
    "Verif.ModelInfo.C129_other_hosts"
   ],
   "note": "The trees of logical axes and of mesh axes are given as functions of the path. The lines are given by what is formatted into them."
  },
  {
   "property": "C13",
   "status": "proved",
   "theorems": [
    "Verif.Loss.C13_forward",
    "Verif.Loss.C13_grad_logits",
    "Verif.Loss.C13_gradient",
    "Verif.Loss.C13_grad_targets",
    "Verif.Loss.C13_soft_targets_sum",
    "Verif.Loss.C13_one_token"
   ],
   "note": "Real arithmetic. The cotangent of the z-loss output is ignored and the coefficient's gradient is 0 by design. The gradient of the logits needs targets that sum to one, which label smoothing violates for a vocabulary of one token only (C13_one_token)."
  },
  {
   "property": "C130",
   "status": "proved",
   "theorems": [
    "Verif.BatchSearch.C130_bsearch",
    "Verif.BatchSearch.C130_topk_rows",
    "Verif.BatchSearch.C130_topp_rows",
    "Verif.BatchSearch.C130_topk",
    "Verif.BatchSearch.C130_topp"
   ],
   "note": "Extends C01-C05 from rows to arrays. The operations of jax.numpy (swapaxes, expand_dims, broadcasting, where, reductions) are models of their documented semantics; softmax of a row and the floating point sum are parameters; rank 0 is not modelled."
  },
  {
   "property": "C131",
   "status": "proved",
   "theorems": [
    "Verif.StepMetrics.C131_values",
    "Verif.StepMetrics.C131_not_found",
    "Verif.StepMetrics.C131_hidden",
    "Verif.StepMetrics.C131_save_best",
    "Verif.StepMetrics.C131_orbax"
   ],
   "note": "Extends C22 by the source of the metric values. Directories and events are given as TensorBoard's loaders yield them; values are a linear order (no NaN)."
  },
  {
   "property": "C132",
   "status": "proved",
   "theorems": [
    "Verif.InferEval.C132_alone",
    "Verif.InferEval.C132_hosts",
    "Verif.InferEval.C132_first_axes",
    "Verif.InferEval.C132_offline"
   ],
   "note": "Extends C36 and C127. seqio.Evaluator.evaluate is a parameter; C132_offline is about score_batch, row by row (C109 proves that scores do not depend on the other rows); decoding with sampling is not the same in the two programs, as infer.py uses other keys."
  },
  {
   "property": "C133",
   "status": "proved",
   "theorems": [
    "Verif.OptaxJob.C133_step",
    "Verif.OptaxJob.C133_learning_rate",
    "Verif.OptaxJob.C133_keeps",
    "Verif.OptaxJob.C133_run",
    "Verif.OptaxJob.C133_job",
    "Verif.OptaxJob.C133_inference"
   ],
   "note": "Composes C46, C126 and C127. The optax transformation is a parameter with the contract stated in Spec.Contract; optax.apply_updates is modelled after its documentation."
  },
  {
   "property": "C134",
   "status": "proved",
   "theorems": [
    "Verif.MultiRun.C134_frozen",
    "Verif.MultiRun.C134_alone",
    "Verif.MultiRun.C134_independent",
    "Verif.MultiRun.C134_leafwise",
    "Verif.MultiRun.C134_trainer",
    "Verif.MultiAxes.C134_axes",
    "Verif.MultiAxes.C134_set_axes"
   ],
   "note": "Extends C47 from one step to runs of the trainer. Sub-optimizers are arbitrary functions of the leaves of their arguments that count their steps; traversal filters look at the path only."
  },
  {
   "property": "C135",
   "status": "proved",
   "theorems": [
    "Verif.AdhocTask.C135_examples",
    "Verif.AdhocTask.C135_succeeds",
    "Verif.AdhocTask.C135_names",
    "Verif.AdhocTask.C135_again",
    "Verif.AdhocTask.C135_colon",
    "Verif.AdhocTask.C135_interactive"
   ],
   "note": "Examples are those before tokenisation. SeqIO's registries, rekey and the TFExample source are modelled after SeqIO's documentation; the hash is a parameter."
  },
  {
   "property": "C136",
   "status": "proved",
   "theorems": [
    "Verif.TrainLoop.C136_only_evaluates",
    "Verif.TrainLoop.C136_too_late",
    "Verif.TrainLoop.C136_relative",
    "Verif.TrainLoop.C136_script"
   ],
   "note": "Uses the model of the training loop of C34. Of the gin configuration only the arguments of train are modelled."
  },
  {
   "property": "C137",
   "status": "proved",
   "theorems": [
    "Verif.Precompile.C137_batches"
   ],
   "note": "Names and shapes only. Uses the data layouts of C42."
  },
  {
   "property": "C138",
   "status": "proved",
   "theorems": [
    "Verif.DecodeLimit.C138_scalar",
    "Verif.DecodeLimit.C138_absent",
    "Verif.DecodeLimit.C138_rows",
    "Verif.DecodeLimit.C138_decodes",
    "Verif.DecodeLimit.C138_sampling"
   ],
   "note": "Limits handed to the loop; that the loop respects them is proved with the sampling loop, which C138_sampling links to for a single number of steps. Shapes that do not broadcast are errors of jnp (trusted)."
  },
  {
   "property": "C14",
   "status": "proved",
   "theorems": [
    "Verif.Loss.C14_nonneg",
    "Verif.Loss.C14_hard_labels",
    "Verif.Loss.C14_tight",
    "Verif.Loss.C14_weighted"
   ],
   "note": "Real arithmetic, vocabulary of at least two tokens."
  },
  {
   "property": "C15",
   "status": "proved",
   "theorems": [
    "Verif.LossWeights.C15_packed_weights",
    "Verif.LossWeights.C15_sequence_total",
    "Verif.LossWeights.C15_average_per_sequence",
    "Verif.LossWeights.C15_names",
    "Verif.LossWeights.C15_unpacked"
   ],
   "note": "Weights from any ordered field, non-negative; padding only at the end of a row. C15_names and C15_unpacked add the names of the factors and rows that are not packed."
  },
  {
   "property": "C16",
   "status": "proved",
   "theorems": [
    "Verif.LossWeights.C16_count"
   ],
   "note": "Rows with distinct contiguous non-zero ids followed by padding."
  },
  {
   "property": "C17",
   "status": "proved",
   "theorems": [
    "Verif.StateDict.C17_intersect",
    "Verif.StateDict.C17_merge",
    "Verif.StateDict.C17_merge_after_intersect"
   ],
   "note": "No parameter may be called 'driver' outside tensorstore specs, and names contain no '/'; merging needs that no leaf of one state sits above a leaf of the other."
  },
  {
   "property": "C18",
   "status": "partial",
   "theorems": [
    "Verif.StateDict.C18_assignment_partial",
    "Verif.StateDict.C18_shadowed",
    "Verif.StateDict.C18_first_rule_ignored",
    "Verif.StateDict.C18_missing_error",
    "Verif.StateDict.C18_require_all",
    "Verif.StateDict.C18_resume_identity",
    "Verif.StateDict.C18_nested"
   ],
   "note": "The claim is false when the checkpoint has an unused entry with the target's own name (C18_shadowed); proved otherwise. Regular expressions are parameters."
  },
  {
   "property": "C19",
   "status": "proved",
   "theorems": [
    "Verif.StateDict.C19_round_trip",
    "Verif.StateDict.C19_names",
    "Verif.StateDict.C19_name_tree"
   ],
   "note": ""
  },
  {
   "property": "C20",
   "status": "partial",
   "theorems": [
    "Verif.Ckpt.C20_latest_complete",
    "Verif.Ckpt.C20_save_visible",
    "Verif.Ckpt.C20_all_complete_partial",
    "Verif.Ckpt.C20_keep_all",
    "Verif.Ckpt.C20_crash_while_pruning",
    "Verif.Ckpt.C20_gs_not_atomic"
   ],
   "note": "The newest checkpoint is always complete after any history of saves and crashes (rename file systems). That every visible checkpoint is complete is false if a crash hits the deletion of an old one (C20_crash_while_pruning), and crash atomicity is false on gs:// (C20_gs_not_atomic)."
  },
  {
   "property": "C21",
   "status": "proved",
   "theorems": [
    "Verif.Ckpt.C21_retention",
    "Verif.Ckpt.C21_backward_save_lost"
   ],
   "note": "C21_backward_save_lost records that saving a step lower than the retained ones deletes it at once."
  },
  {
   "property": "C22",
   "status": "proved",
   "theorems": [
    "Verif.Ckpt.C22_save_best"
   ],
   "note": "Metric values are a linear order (no NaN)."
  },
  {
   "property": "C23",
   "status": "proved",
   "theorems": [
    "Verif.Ckpt.C23_round_trip",
    "Verif.Ckpt.C23_distinct",
    "Verif.Ckpt.C23_all_steps",
    "Verif.Ckpt.C23_tmp_ignored",
    "Verif.Ckpt.C23_custom_prefix_not_listed"
   ],
   "note": "Listing works only for the default prefix: C23_custom_prefix_not_listed."
  },
  {
   "property": "C24",
   "status": "proved",
   "theorems": [
    "Verif.Chunk.C24_returns",
    "Verif.Chunk.C24_tight",
    "Verif.Chunk.C24_zero_dim"
   ],
   "note": "A chunk shape is returned for every shape without zero dimension; for a zero-size dimension the negation is proved (IndexError)."
  },
  {
   "property": "C25",
   "status": "partial",
   "theorems": [
    "Verif.Bytes.C25_never_exceeds",
    "Verif.Bytes.C25_shared_limit",
    "Verif.Bytes.C25_asserts",
    "Verif.Bytes.C25_all_returned",
    "Verif.Bytes.C25_progress",
    "Verif.Bytes.C25_terminates",
    "Verif.Bytes.C25_large_array_hangs",
    "Verif.Bytes.C25_no_common_limit"
   ],
   "note": "Proved for arrays smaller than the limit and one limiter. False in general: an array at least as large as the limit waits for ever, and limiters do not share a limit (both proved)."
  },
  {
   "property": "C26",
   "status": "partial",
   "theorems": [
    "Verif.Ckpt.C26_selection_partial",
    "Verif.Ckpt.C26_step_zero",
    "Verif.Ckpt.C26_find_checkpoint"
   ],
   "note": "An explicit restore step 0 is ignored and the newest step is restored (C26_step_zero); the claim holds for every other step."
  },
  {
   "property": "C27",
   "status": "partial",
   "theorems": [
    "Verif.RestoreCfg.C27_first_config",
    "Verif.RestoreCfg.C27_none",
    "Verif.RestoreCfg.C27_training",
    "Verif.RestoreCfg.C27_training_errors",
    "Verif.RestoreCfg.C27_from_checkpoint",
    "Verif.RestoreCfg.C27_other_dirs_ignored"
   ],
   "note": "Precedence is proved in full. That each of several directories contributes its latest checkpoint is false: only the first directory with checkpoints is used (C27_other_dirs_ignored)."
  },
  {
   "property": "C28",
   "status": "proved",
   "theorems": [
    "Verif.Msgpack.C28_key_tree",
    "Verif.Msgpack.C28_unique",
    "Verif.Msgpack.C28_bytes_keys",
    "Verif.Msgpack.C28_contains_ts_spec"
   ],
   "note": "For string keys; bytes keys are misread (proved)."
  },
  {
   "property": "C29",
   "status": "partial",
   "theorems": [
    "Verif.TsPath.C29_distinct_partial",
    "Verif.TsPath.C29_collision",
    "Verif.TsPath.C29_write_place",
    "Verif.TsPath.C29_bucket",
    "Verif.TsPath.C29_local",
    "Verif.TsPath.C29_read_place"
   ],
   "note": "Distinctness holds for keys without '.', and fails with one (proved). Portability between local and gs:// directories is proved."
  },
  {
   "property": "C30",
   "status": "proved",
   "theorems": [
    "Verif.Train.C30_steps",
    "Verif.Train.C30_failure",
    "Verif.Train.C30_rng",
    "Verif.Train.C30_split",
    "Verif.Train.trainStep_shape",
    "Verif.Train.C30_one_step"
   ],
   "note": "Metrics and state arithmetic exact; saving and restoring are a pair enc/dec with dec (enc s) = s."
  },
  {
   "property": "C31",
   "status": "proved",
   "theorems": [
    "Verif.Train.C31_cover",
    "Verif.Train.C31_assert",
    "Verif.Train.C31_same_result",
    "Verif.Train.C31_one_dropout_key",
    "Verif.Train.C31_chain"
   ],
   "note": "C31_same_result is for losses that are sums over examples, without dropout and mutables. With dropout the equivalence cannot hold: C31_one_dropout_key proves that all microbatches of a step are given the same dropout key. C31_chain says what is computed for an arbitrary loss."
  },
  {
   "property": "C32",
   "status": "proved",
   "theorems": [
    "Verif.Metrics.C32_totals",
    "Verif.Metrics.C32_order",
    "Verif.Metrics.C32_summary",
    "Verif.Metrics.C32_last",
    "Verif.Metrics.C32_dict",
    "Verif.Metrics.C32_from_values",
    "Verif.Metrics.C32_no_merge_after_duration"
   ],
   "note": "Exact addition (float rounding is outside the model)."
  },
  {
   "property": "C33",
   "status": "proved",
   "theorems": [
    "Verif.EarlyStop.C33_stop_iff",
    "Verif.EarlyStop.C33_latch",
    "Verif.EarlyStop.C33_missing",
    "Verif.EarlyStop.C33_patience_one"
   ],
   "note": "Without NaN. C33_patience_one: patience 0 or 1 stops at the first value."
  },
  {
   "property": "C34",
   "status": "partial",
   "theorems": [
    "Verif.TrainLoop.C34_schedule_partial",
    "Verif.TrainLoop.C34_last_extra_step_crashes",
    "Verif.TrainLoop.C34_gap_needed",
    "Verif.TrainLoop.C34_extra_steps_need_period"
   ],
   "note": "The schedule claim is proved for all configurations whose checkpoint_steps satisfy GoodSteps; outside it is false, and the failures are proved."
  },
  {
   "property": "C35",
   "status": "partial",
   "theorems": [
    "Verif.TrainLoop.C35_no_training_after_stop",
    "Verif.TrainLoop.C35_early_return_only_if_asked",
    "Verif.TrainLoop.C35_stop_saves_partial",
    "Verif.TrainLoop.C35_stop_without_save",
    "Verif.TrainLoop.C35_train_eval_ignored"
   ],
   "note": "Any request stops training only if it is the last answer at that step; a TRAIN_EVAL request is overwritten by INFER_EVAL (proved), and a stop at an epoch boundary off the checkpoint period is not saved (proved)."
  },
  {
   "property": "C36",
   "status": "proved",
   "theorems": [
    "Verif.Infer.C36_results",
    "Verif.Infer.C36_map",
    "Verif.Infer.C36_aux",
    "Verif.Infer.C36_empty",
    "Verif.Infer.C36_not_sorted"
   ],
   "note": "For batch sizes that the number of shards divides (get_data_layout enforces it) and a step that answers row by row. infer_fn alone does not restore the order (C36_not_sorted); the sort by index does. An empty data set is an error (C36_empty)."
  },
  {
   "property": "C37",
   "status": "partial",
   "theorems": [
    "Verif.InferRestart.C37_markers",
    "Verif.InferRestart.C37_restart_partial",
    "Verif.InferRestart.C37_completes",
    "Verif.InferRestart.C37_output",
    "Verif.InferRestart.C37_truncated",
    "Verif.InferRestart.C37_stuck",
    "Verif.InferRestart.C37_stuck_markers",
    "Verif.InferRestart.C37_too_many_chunks"
   ],
   "note": "With markers: every crash point. With iterator checkpoints: every crash point outside the removal of the temporary directory, inside which the claim is false (C37_truncated). At most 100000 chunks (C37_too_many_chunks). Crash points after which no restart succeeds are exhibited (C37_stuck, C37_stuck_markers)."
  },
  {
   "property": "C38",
   "status": "proved",
   "theorems": [
    "Verif.Executor.C38_reported",
    "Verif.Executor.C38_synchronous"
   ],
   "note": "Tasks terminate and are not cancelled. C38_synchronous: the inverted wait flag makes every submit wait for its own task."
  },
  {
   "property": "C39",
   "status": "proved",
   "theorems": [
    "Verif.EvalAll.C39_once",
    "Verif.EvalAll.C39_order",
    "Verif.EvalAll.C39_complete",
    "Verif.EvalAll.C39_first_run",
    "Verif.EvalAll.C39_blank",
    "Verif.EvalAll.C39_torn_record"
   ],
   "note": "The record is modelled as text. Hypotheses: no blanks in directory names, native checkpoints, the process does not die while the record is being written. Each is needed (C39_blank, C39_torn_record); the very first run looks at one directory only (C39_first_run)."
  },
  {
   "property": "C40",
   "status": "proved",
   "theorems": [
    "Verif.Mesh.C40_mesh",
    "Verif.Mesh.C40_rows",
    "Verif.Mesh.C40_hosts",
    "Verif.Mesh.C40_succeeds",
    "Verif.Mesh.C40_default"
   ],
   "note": "Topologies are boxes of devices (TPU with chip coordinates, or process x local device). C40_hosts in the reordered (Z-major) case needs hosts owning one layer of chips with all cores; GPUs and several slices are C124."
  },
  {
   "property": "C41",
   "status": "proved",
   "theorems": [
    "Verif.LocalChunk.C41_tiles",
    "Verif.LocalChunk.C41_holds",
    "Verif.LocalChunk.C41_tail_lost"
   ],
   "note": "Hosts own equal boxes of mesh positions (alignment is derived). Divisibility is needed: C41_tail_lost."
  },
  {
   "property": "C42",
   "status": "proved",
   "theorems": [
    "Verif.LocalChunk.C42_layout",
    "Verif.LocalChunk.C42_rejects",
    "Verif.LocalChunk.C42_moe"
   ],
   "note": "Same host-box hypothesis; also proves one first host per shard and that shard ids agree with the rows the devices hold."
  },
  {
   "property": "C43",
   "status": "proved",
   "theorems": [
    "Verif.MoeMesh.C43_axis",
    "Verif.MoeMesh.C43_devices",
    "Verif.MoeMesh.C43_zero"
   ],
   "note": "Built on the base mesh of C40."
  },
  {
   "property": "C44",
   "status": "proved",
   "theorems": [
    "Verif.Schedule.C44_product",
    "Verif.Schedule.C44_floor",
    "Verif.Schedule.C44_unknown",
    "Verif.Schedule.C44_default",
    "Verif.Schedule.C44_default_shape",
    "Verif.Schedule.C44_cosine"
   ],
   "note": "Over the reals, for positive warmup_steps, steps_per_decay and steps_per_cycle and a non-negative decay_factor (C44_floor and C44_unknown without these). The unknown-factor check happens when the schedule is first evaluated, not when it is created."
  },
  {
   "property": "C45",
   "status": "proved",
   "theorems": [
    "Verif.Schedule.C45_least_multiple"
   ],
   "note": ""
  },
  {
   "property": "C46",
   "status": "proved",
   "theorems": [
    "Verif.OptaxState.C46_round_trip",
    "Verif.OptaxState.C46_no_empty",
    "Verif.OptaxState.C46_missing",
    "Verif.OptaxState.C46_plain"
   ],
   "note": "States are represented by their flax state dicts; flax's from_state_dict and flatten/unflatten are modelled."
  },
  {
   "property": "C47",
   "status": "proved",
   "theorems": [
    "Verif.MultiOpt.C47_apply",
    "Verif.MultiOpt.C47_overlap",
    "Verif.MultiOpt.C47_init",
    "Verif.MultiOpt.C47_hyper",
    "Verif.MultiOpt.C47_short_hyper"
   ],
   "note": "Traversal filters look at the path only; sub-optimizers are arbitrary functions that return leaves where the parameters have theirs. A hyper-parameter list that is too short silently skips optimizers (C47_short_hyper)."
  },
  {
   "property": "C48",
   "status": "proved",
   "theorems": [
    "Verif.Adafactor.C48_update",
    "Verif.Adafactor.C48_dims",
    "Verif.Adafactor.C48_run",
    "Verif.Adafactor.C48_nan_free",
    "Verif.Adafactor.C48_batch",
    "Verif.Adafactor.C48_axis_rules"
   ],
   "note": "Scalars are an arbitrary type with arbitrary operations; numpy/jax broadcasting, mean, expand_dims, delete and where are modelled; argsort is a parameter that returns a sorting permutation. Also proved: batched slices never influence each other, and NaN never enters with skip_nan_updates."
  },
  {
   "property": "C49",
   "status": "proved",
   "theorems": [
    "Verif.Importer.C49_first_rule",
    "Verif.Importer.C49_apply",
    "Verif.Importer.C49_unmatched",
    "Verif.Importer.C49_t5_names",
    "Verif.Importer.C49_keys_distinct",
    "Verif.Importer.C49_t5_import",
    "Verif.Importer.C49_collision",
    "Verif.Importer.C49_missing_slots",
    "Verif.Importer.C49_slots_complete",
    "Verif.Importer.C49_relpos",
    "Verif.Importer.C49_state_dict",
    "Verif.Importer.C49_missing_unnoticed"
   ],
   "note": "Variable names are modelled as '/'-separated components, regexes component by component. Refuted and recorded: decoder/transformer names of the same parameter collide (C49_collision) and variables missing from the checkpoint go unnoticed (C49_missing_unnoticed)."
  },
  {
   "property": "C50",
   "status": "proved",
   "theorems": [
    "Verif.NamedTree.C50_map",
    "Verif.NamedTree.C50_scale",
    "Verif.NamedTree.C50_no_leaves"
   ],
   "note": "Trees of dicts and dataclasses with distinct non-empty keys not ending in a slash; a tree without leaves raises (C50_no_leaves)."
  },
  {
   "property": "C51",
   "status": "proved",
   "theorems": [
    "Verif.GinArgs.C51_rewrite",
    "Verif.GinArgs.C51_positions"
   ],
   "note": ""
  },
  {
   "property": "C52",
   "status": "proved",
   "theorems": [
    "Verif.TrainState.C52_create",
    "Verif.TrainState.C52_round_trip",
    "Verif.TrainState.C52_replace_step",
    "Verif.TrainState.C52_inference",
    "Verif.TrainState.C52_logical",
    "Verif.TrainState.C52_unnamed_mutables"
   ],
   "note": "Frozen and plain dicts are not told apart; arrays and axis metadata are opaque. Recorded: a mutable collection without axes is accepted and then missing from the logical axes (C52_unnamed_mutables)."
  },
  {
   "property": "C53",
   "status": "proved",
   "theorems": [
    "Verif.DecParams.C53_independent",
    "Verif.DecParams.C53_rng",
    "Verif.DecParams.C53_other_models"
   ],
   "note": "A call is modelled by the keyword arguments that reach the decoding function. The unrestricted claim (two independent calls) is false: C53_rng and C53_other_models say what happens instead."
  },
  {
   "property": "C54",
   "status": "proved",
   "theorems": [
    "Verif.Masks.C54_packing_isolation",
    "Verif.Masks.C54_leak_without_encoder_tokens"
   ],
   "note": "The example must have at least one real encoder token: otherwise its cross-attention row is fully masked and the claim is false (C54_leak_without_encoder_tokens)."
  },
  {
   "property": "C55",
   "status": "proved",
   "theorems": [
    "Verif.Beam.C55_finished_score",
    "Verif.Beam.C55_live_score",
    "Verif.Beam.C55_eos_in_prompt"
   ],
   "note": "Teacher-forced prompts must not contain EOS: C55_eos_in_prompt proves that otherwise a truncated prompt wins with score 0. Entries at the NEG_INF level are empty slots and excluded."
  },
  {
   "property": "C56",
   "status": "proved",
   "theorems": [
    "Verif.Beam.C56_distinct"
   ],
   "note": "As C55."
  },
  {
   "property": "C57",
   "status": "proved",
   "theorems": [
    "Verif.Train.C57_restarts",
    "Verif.Train.C57_needs_dataset"
   ],
   "note": "Saving and restoring are a pair enc/dec with dec (enc s) = s, and the data set position is saved; C57_needs_dataset proves that the claim fails without save_dataset."
  },
  {
   "property": "C58",
   "status": "proved",
   "theorems": [
    "Verif.TrainLoop.C58_faithful",
    "Verif.TrainLoop.C58_preempted"
   ],
   "note": "No hypotheses on configuration or environment. trainer.train is all or nothing: it assigns train_state only after its loop (trainer.py:570), so a preempted block is not part of the saved state."
  },
  {
   "property": "C59",
   "status": "proved",
   "theorems": [
    "Verif.ApplyGrad.C59_apply",
    "Verif.ApplyGrad.C59_clip",
    "Verif.ApplyGrad.C59_init"
   ],
   "note": "The per-parameter update is arbitrary (C48 covers Adafactor's). Clipping over the reals: no rounding, no NaN; 1/0 is infinity."
  },
  {
   "property": "C60",
   "status": "proved",
   "theorems": [
    "Verif.KVCache.C60_incremental",
    "Verif.KVCache.C60_needs_nonpadding"
   ],
   "note": "Attention is modelled concretely in real arithmetic; a masked key has weight 0 (in the code its logit gets -1e10, whose exponential is 0 in float32). Norms, projections, MLP and cross-attention are arbitrary functions of one position. The hypothesis on the targets is needed (C60_needs_nonpadding)."
  },
  {
   "property": "C61",
   "status": "proved",
   "theorems": [
    "Verif.KVCache.C61_prefill",
    "Verif.KVCache.C61_padding_in_prompt"
   ],
   "note": "Same model of attention as C60. A padding token inside the prompt makes the initial index too small (C61_padding_in_prompt)."
  },
  {
   "property": "C62",
   "status": "proved",
   "theorems": [
    "Verif.Score.C62_encdec",
    "Verif.Score.C62_decoder_only",
    "Verif.Score.C62_padding_sampled"
   ],
   "note": "Composes C06, C60, C61 and the loss model; real arithmetic. num_decodes=1 (C06_num_decodes covers the expansion). The default rescale_log_probs=True reports log-probabilities under the rescaled logits instead and is not covered. The condition on padding is needed (C62_padding_sampled)."
  },
  {
   "property": "C63",
   "status": "proved",
   "theorems": [
    "Verif.Score.C63_encdec",
    "Verif.Score.C63_decoder_only"
   ],
   "note": "Composes C08 and C55 (beam search), C09 (alignment), C60, C61 and the loss model; real arithmetic. Rows with a longer prompt than another row of the batch may be searched beyond their maximal length and are not covered in the decoder-only theorem."
  },
  {
   "property": "C64",
   "status": "proved",
   "theorems": [
    "Verif.SaveRestore.C64_round_trip",
    "Verif.SaveRestore.C64_sound",
    "Verif.SaveRestore.C64_second_save",
    "Verif.SaveRestore.C64_dot_collision",
    "Verif.SaveRestore.C64_uint16",
    "Verif.SaveRestore.C64_no_save_dtype",
    "Verif.SaveRestore.C64_shape_not_checked"
   ],
   "note": "Without state transformations and fallback state (C17, C18). Hypotheses are needed: C64_dot_collision, C64_uint16 (saved but not restorable), C64_no_save_dtype. C64_shape_not_checked records that unpartitioned arrays are accepted with any shape. tensorstore and jax array serialisation are modelled as a map from places to whole arrays."
  },
  {
   "property": "C65",
   "status": "proved",
   "theorems": [
    "Verif.Calm.C65_exit",
    "Verif.Calm.C65_all_layers",
    "Verif.Calm.C65_min_exit",
    "Verif.Calm.C65_softmax_max",
    "Verif.Calm.C65_softmax_diff",
    "Verif.Calm.C65_threshold_one",
    "Verif.Calm.C65_oracle",
    "Verif.Calm.C65_decodes",
    "Verif.Calm.C65_records",
    "Verif.Calm.C65_min_exit_hangs",
    "Verif.Calm.C65_position_ignored",
    "Verif.Calm.C65_prefilled_mixes"
   ],
   "note": "The network is not in the repository and is a parameter. Findings: min_exit beyond the last layer never ends; position_adjusted_threshold has no effect; with a prefilled cache records of other positions are overwritten."
  },
  {
   "property": "C66",
   "status": "partial",
   "theorems": [
    "Verif.Calm.C66_propagation_partial",
    "Verif.Calm.C66_wrong_state",
    "Verif.Calm.C66_oracle_cache_partial",
    "Verif.Calm.C66_oracle_reruns"
   ],
   "note": "False in general: after an exit that is not the first one the skipped layers get the hidden state of the first exit (C66_wrong_state), and oracle_cache runs the last layers twice for longer exit intervals (C66_oracle_reruns). Proved for exits at the first exit point, and for oracle_cache with exit interval 1."
  },
  {
   "property": "C67",
   "status": "proved",
   "theorems": [
    "Verif.Export.C67_features",
    "Verif.Export.C67_shift",
    "Verif.Export.C67_invalid",
    "Verif.Export.C67_bucket_last_token",
    "Verif.Export.C67_tokenized_eos",
    "Verif.Export.C67_split",
    "Verif.Export.C67_split_absent"
   ],
   "note": "The tokenizer is a parameter. Findings: a target row that fills its bucket loses its last token from the decoder inputs when batched with a longer one (C67_bucket_last_token); for padded tokenized inputs EOS comes after the padding (C67_tokenized_eos)."
  },
  {
   "property": "C68",
   "status": "partial",
   "theorems": [
    "Verif.Export.C68_prompt",
    "Verif.Export.C68_eos_after_padding",
    "Verif.Export.C68_targets_partial",
    "Verif.Export.C68_targets_fail",
    "Verif.Export.C68_unequal"
   ],
   "note": "Proved for the feature 'inputs' and equally long rows, and for 'targets' with one row. False in general: a request of several rows with the feature 'targets' fails (C68_targets_fail), texts with different numbers of tokens fail (C68_unequal), and EOS is put after the padding, which then becomes prompt and loss (C68_eos_after_padding)."
  },
  {
   "property": "C69",
   "status": "proved",
   "theorems": [
    "Verif.Export.C69_before_eos",
    "Verif.Export.C69_warmup",
    "Verif.Export.C69_warmup_complete",
    "Verif.Export.C69_warmup_exact",
    "Verif.Export.C69_batch",
    "Verif.Export.C69_decoder_params",
    "Verif.Export.C69_no_decoder_params",
    "Verif.Export.C69_names"
   ],
   "note": "Findings: random tokens of exactly the wanted number are refused (C69_warmup_exact); an empty specification of decoder parameters takes all arguments away from the preprocessor (C69_no_decoder_params)."
  },
  {
   "property": "C70",
   "status": "proved",
   "theorems": [
    "Verif.Interactive.C70_batches",
    "Verif.Interactive.C70_too_few",
    "Verif.Interactive.C70_loop",
    "Verif.Interactive.C70_single_batch"
   ],
   "note": "Findings: if the number of batches is smaller than num_steps and does not divide it, the remaining steps are left out (C70_too_few); a single batch for prediction, scoring or evaluation is not used, the model gets the dict keys as texts (C70_single_batch)."
  },
  {
   "property": "C71",
   "status": "proved",
   "theorems": [
    "Verif.Interactive.C71_batches",
    "Verif.Interactive.C71_infer",
    "Verif.Interactive.C71_too_few",
    "Verif.Interactive.C71_batch_size"
   ],
   "note": "The inference function and the data pipeline are parameters."
  },
  {
   "property": "C72",
   "status": "proved",
   "theorems": [
    "Verif.Fallback.C72_fallback",
    "Verif.Fallback.C72_succeeds",
    "Verif.Fallback.C72_other_model",
    "Verif.Fallback.C72_no_target",
    "Verif.Fallback.C72_fallback_not_cast",
    "Verif.Fallback.C72_empty_dropped"
   ],
   "note": "Keys without slash and other than 'driver'. Findings: with restore_dtype and no common parameter the restore fails although the fallback has everything (C72_no_target); fallback values are not cast to restore_dtype (C72_fallback_not_cast); empty dicts are dropped (C72_empty_dropped)."
  },
  {
   "property": "C73",
   "status": "proved",
   "theorems": [
    "Verif.Upcycle.C73_experts",
    "Verif.Upcycle.C73_others",
    "Verif.Upcycle.C73_multi_host",
    "Verif.Upcycle.C73_unchecked"
   ],
   "note": "Findings: the local chunk of the host is cut out of the global array, so that with a non-expert dimension distributed over hosts the result has a wrong shape (C73_multi_host); num_experts is not checked, arrays in the msgpack file and unpartitioned expert parameters are not broadcast, full-shape m and v of experts cannot be restored (C73_unchecked)."
  },
  {
   "property": "C74",
   "status": "proved",
   "theorems": [
    "Verif.OptaxAxes.C74_axes",
    "Verif.OptaxAxes.C74_unregistered",
    "Verif.OptaxAxes.C74_zero_nans",
    "Verif.OptaxAxes.C74_masked_accumulation",
    "Verif.OptaxAxes.C74_sm3"
   ],
   "note": "The fields of optax's state classes are taken from optax. Findings: the rules for zero_nans and SM3 cannot be used, the derivation fails in restore_state (C74_zero_nans, C74_sm3); MultiSteps inside a masked transformation fails, since the rule gives axes to masked gradients (C74_masked_accumulation)."
  },
  {
   "property": "C75",
   "status": "proved",
   "theorems": [
    "Verif.AxisRules.C75_defined",
    "Verif.AxisRules.C75_assign",
    "Verif.AxisRules.C75_batch",
    "Verif.AxisRules.C75_model",
    "Verif.AxisRules.C75_embed",
    "Verif.AxisRules.C75_dims",
    "Verif.AxisRules.C75_data_axis",
    "Verif.AxisRules.C75_state",
    "Verif.AxisRules.C75_state_defined",
    "Verif.AxisRules.C75_moe",
    "Verif.AxisRules.C75_moe_2d",
    "Verif.AxisRules.C75_moe_expert_mlp"
   ],
   "note": "flax's logical_to_mesh_axes is modelled from its source. Findings: two-dimensional parameter partitioning of a mixture-of-experts model raises a TypeError instead of a warning (C75_moe_2d); with the default expert rules the model axis goes to 'embed' of an expert kernel and 'expert_mlp' stays unsplit (C75_moe_expert_mlp)."
  },
  {
   "property": "C76",
   "status": "proved",
   "theorems": [
    "Verif.AxesOverride.C76_override",
    "Verif.AxesOverride.C76_rank",
    "Verif.AxesOverride.C76_ranks_kept",
    "Verif.AxesOverride.C76_no_axes"
   ],
   "note": "Regular expressions are the sets of names they match. Parameter names do not end in '_axes'."
  },
  {
   "property": "C77",
   "status": "proved",
   "theorems": [
    "Verif.BaseMetrics.C77_report",
    "Verif.BaseMetrics.C77_z",
    "Verif.BaseMetrics.C77_features",
    "Verif.BaseMetrics.C77_unpacked",
    "Verif.BaseMetrics.C77_average_per_sequence"
   ],
   "note": "Numbers are an ordered field; clu's Accuracy and Average are taken from their documentation. Finding: with the loss normalising factor AVERAGE_PER_SEQUENCE the reported loss per non-padding target token is a loss per sequence (C77_average_per_sequence)."
  },
  {
   "property": "C78",
   "status": "proved",
   "theorems": [
    "Verif.MoeLoss.C78_loss",
    "Verif.MoeLoss.C78_missing",
    "Verif.MoeLoss.C78_report",
    "Verif.MoeLoss.C78_microbatches"
   ],
   "note": "The cross entropy is given (C13); arrays sown under one name have one shape. Finding: with M microbatches the expert losses count M times, and the reported router fractions are M times too large (C78_microbatches)."
  },
  {
   "property": "C79",
   "status": "proved",
   "theorems": [
    "Verif.ShardedArray.C79_batch",
    "Verif.ShardedArray.C79_moe",
    "Verif.ShardedArray.C79_any_size",
    "Verif.ShardedArray.C79_whole_batch",
    "Verif.ShardedArray.C79_rejects"
   ],
   "note": "jax's devices_indices_map, shard_shape and make_array_from_single_device_arrays are taken from their documentation; hashes of the indices are assumed not to collide. Finding: a host batch of the wrong number of blocks is accepted, its rows dropped or repeated (C79_any_size, C79_whole_batch)."
  },
  {
   "property": "C80",
   "status": "proved",
   "theorems": [
    "Verif.AsyncMetrics.C80_written",
    "Verif.AsyncMetrics.C80_total",
    "Verif.AsyncMetrics.C80_no_error",
    "Verif.AsyncMetrics.C80_progress",
    "Verif.AsyncMetrics.C80_flush"
   ],
   "note": "A transition system with arbitrary interleaving. asynclib.Pool(max_workers=1) is taken from its documentation (tasks run one at a time in order of submission, join waits for all); waiting for a value never fails. What the summaries contain besides the duration is C77."
  },
  {
   "property": "C81",
   "status": "proved",
   "theorems": [
    "Verif.AdafactorAxes.C81_filter",
    "Verif.AdafactorAxes.C81_infer",
    "Verif.AdafactorAxes.C81_derive",
    "Verif.AdafactorAxes.C81_experts",
    "Verif.AdafactorAxes.C81_filter_use",
    "Verif.AdafactorAxes.C81_beta1_zero",
    "Verif.AdafactorAxes.C81_placeholder",
    "Verif.AdafactorAxes.C81_partitions",
    "Verif.AdafactorAxes.C81_override"
   ],
   "note": "Parameter names with both expert and a later /kernel/v_ are excluded (OddName). Findings: with beta1 = 0.0 the momentum exists but is replicated (C81_beta1_zero); the one-element placeholders of unfactored expert kernels get the axis expert (C81_placeholder)."
  },
  {
   "property": "C82",
   "status": "proved",
   "theorems": [
    "Verif.EvalData.C82_defined",
    "Verif.EvalData.C82_hosts",
    "Verif.EvalData.C82_cover",
    "Verif.EvalData.C82_once",
    "Verif.EvalData.C82_train",
    "Verif.EvalData.C82_deterministic",
    "Verif.EvalData.C82_steps",
    "Verif.EvalData.C82_airio",
    "Verif.EvalData.C82_airio_steps"
   ],
   "note": "seqio.get_dataset is a parameter; tf.data's shard, batch, repeat and take are taken from their documentation. For AirIO tasks the evaluation has batches of one example, the same on all hosts, and is not limited to eval_steps (C82_airio, C82_airio_steps). Finding: deterministic=True raises a NameError (C82_deterministic)."
  },
  {
   "property": "C83",
   "status": "proved",
   "theorems": [
    "Verif.Vocabs.C83_vocabulary",
    "Verif.Vocabs.C83_verify",
    "Verif.Vocabs.C83_others_unchecked"
   ],
   "note": "Comparing vocabularies is comparing values. Finding: further features of a task with inputs and targets are not compared (C83_others_unchecked)."
  },
  {
   "property": "C84",
   "status": "proved",
   "theorems": [
    "Verif.InferLines.C84_lines",
    "Verif.InferLines.C84_file",
    "Verif.InferLines.C84_end_to_end",
    "Verif.InferLines.C84_unnoticed"
   ],
   "note": "JSON encoding, conversion of values and the vocabulary are parameters. Findings: surplus predictions are dropped silently, an unknown mode is noticed only if there is an example (C84_unnoticed); with all decodes the padding of prediction_tokens is kept."
  },
  {
   "property": "C85",
   "status": "proved",
   "theorems": [
    "Verif.TrainerEval.C85_lockstep",
    "Verif.TrainerEval.C85_host_zero",
    "Verif.TrainerEval.C85_eval",
    "Verif.TrainerEval.C85_compile",
    "Verif.TrainerEval.C85_compiled_same"
   ],
   "note": "multihost_assert_equal is taken from the jax documentation (comparison with host 0); a collective operation that some host never reaches does not complete. Finding: if host 0 has the fewest batches it still writes a summary of those, while the other hosts fail (C85_host_zero)."
  },
  {
   "property": "C86",
   "status": "proved",
   "theorems": [
    "Verif.WeightMetrics.C86_metrics",
    "Verif.WeightMetrics.C86_consistent",
    "Verif.WeightMetrics.C86_steps",
    "Verif.WeightMetrics.C86_empty"
   ],
   "note": "Exact reals; infinities and NaN are one value. Findings: weight_update_divided_by_weight_rms is infinite or NaN as soon as one old weight is zero, as for zero-initialised biases (C86_metrics); a parameter without elements makes the step fail (C86_empty)."
  },
  {
   "property": "C87",
   "status": "proved",
   "theorems": [
    "Verif.LoadT5x.C87_load",
    "Verif.LoadT5x.C87_lazy",
    "Verif.LoadT5x.C87_empty",
    "Verif.LoadT5x.C87_versions",
    "Verif.LoadT5x.C87_transform",
    "Verif.LoadT5x.C87_casts_everything"
   ],
   "note": "Same abstractions as C64. Findings: restore_dtype also casts the optimizer state and the step, other than documented and other than Checkpointer.restore (C87_casts_everything); an empty dict in the state makes loading fail (OptaxWrapper drops those of the optimizer state when saving) (C87_empty)."
  },
  {
   "property": "C88",
   "status": "proved",
   "theorems": [
    "Verif.Orbax.C88_save_as_is",
    "Verif.Orbax.C88_restore",
    "Verif.Orbax.C88_succeeds",
    "Verif.Orbax.C88_round_trip",
    "Verif.Orbax.C88_save_dtype_lost",
    "Verif.Orbax.C88_step_cast",
    "Verif.Orbax.C88_empty"
   ],
   "note": "Orbax itself is trusted (every leaf is stored and restored, cast as its arguments say). No state transformations, no data set; the legacy format is C64. Findings: save_dtype has no effect because names are joined with '/' but split at '.' (C88_save_dtype_lost); an unpartitioned step is cast to the restore dtype (C88_step_cast); an empty dict in the train state makes restoring fail (C88_empty)."
  },
  {
   "property": "C89",
   "status": "proved",
   "theorems": [
    "Verif.BeamDims.C89_flatten",
    "Verif.BeamDims.C89_unflatten",
    "Verif.BeamDims.C89_expand",
    "Verif.BeamDims.C89_one_hot",
    "Verif.BeamDims.C89_fancy",
    "Verif.BeamDims.C89_cache_map",
    "Verif.BeamDims.C89_init",
    "Verif.BeamDims.C89_flat_cache",
    "Verif.BeamDims.C89_step",
    "Verif.BeamDims.C89_samples",
    "Verif.BeamDims.C89_nan_spreads"
   ],
   "note": "Floats are exact numbers, infinities and NaN. Finding: because beams are gathered by a one-hot contraction, a NaN or infinity in the cache of one beam gets into all beams of the row (C89_nan_spreads)."
  },
  {
   "property": "C90",
   "status": "proved",
   "theorems": [
    "Verif.CalmLoss.C90_weights",
    "Verif.CalmLoss.C90_average",
    "Verif.CalmLoss.C90_same",
    "Verif.CalmLoss.C90_negative",
    "Verif.CalmLoss.C90_balance",
    "Verif.CalmLoss.C90_meta",
    "Verif.CalmLoss.C90_meta_nan",
    "Verif.CalmLoss.C90_first_agreeing",
    "Verif.CalmLoss.C90_geom",
    "Verif.CalmLoss.C90_geom_loss",
    "Verif.CalmLoss.C90_z_unreported"
   ],
   "note": "Real numbers; predictions of the layers given; positions as a list. Findings: negative aggregation weights below -1 are accepted and divide by zero for two layers (C90_negative); the classifier's loss is NaN if no weight is exactly one, as with AVERAGE_PER_SEQUENCE (C90_meta_nan); the z-loss of the geometric-like loss is reported as zero (C90_z_unreported)."
  },
  {
   "property": "C91",
   "status": "proved",
   "theorems": [
    "Verif.AdafactorNum.C91_decay",
    "Verif.AdafactorNum.C91_accumulators",
    "Verif.AdafactorNum.C91_reachable",
    "Verif.AdafactorNum.C91_step",
    "Verif.AdafactorNum.C91_bounded",
    "Verif.AdafactorNum.C91_momentum",
    "Verif.AdafactorNum.C91_sign",
    "Verif.AdafactorNum.C91_reset",
    "Verif.AdafactorNum.C91_matrix",
    "Verif.AdafactorNum.C91_zero_decay"
   ],
   "note": "Arithmetic of real numbers on the array model of C48. The statement about row and column means and rank one is for matrices (the default factors no others). Finding: with weight_decay_rate_lr_exponent, a weight_decay_rate of zero counts as one (C91_zero_decay)."
  },
  {
   "property": "C92",
   "status": "proved",
   "theorems": [
    "Verif.SampleToken.C92_greedy",
    "Verif.SampleToken.C92_score",
    "Verif.SampleToken.C92_topp_search",
    "Verif.SampleToken.C92_support",
    "Verif.SampleToken.C92_topk_one",
    "Verif.SampleToken.C92_tie",
    "Verif.SampleToken.C92_traced_topp_zero",
    "Verif.SampleToken.C92_below_neg_inf",
    "Verif.SampleToken.C92_both",
    "Verif.SampleToken.C92_identical",
    "Verif.SampleToken.C92_generated"
   ],
   "note": "Real numbers; categorical sampling is argmax of logits plus noise, the distribution of the noise is not modelled. Findings: with an array of temperatures every row is sampled with the same key, so the num_decodes decodes of an example are identical (C92_identical); a traced topp of 0 makes all tokens equally likely instead of having no effect (C92_traced_topp_zero); scaled logits below -1e7 make the sampler choose what top-k excluded (C92_below_neg_inf); with ties topk=1 is random and has log-probability at most -log 2 (C92_tie)."
  },
  {
   "property": "C93",
   "status": "proved",
   "theorems": [
    "Verif.Transformer.C93_same_logits",
    "Verif.Transformer.C93_packed",
    "Verif.Transformer.C93_padding",
    "Verif.Transformer.C93_causal",
    "Verif.Transformer.C93_mask_exact",
    "Verif.Transformer.C93_fully_masked"
   ],
   "note": "Real arithmetic with an exponential that is 0 from some -theta on (float32: about -104); no dropout; the summands are the same, but float sums of rows of different lengths may round differently. Finding: a fully masked query attends to everything (C93_fully_masked), see also C54_leak_without_encoder_tokens."
  },
  {
   "property": "C94",
   "status": "proved",
   "theorems": [
    "Verif.T5Decode.C94_decode",
    "Verif.T5Decode.C94_packed",
    "Verif.T5Decode.C94_score",
    "Verif.T5Decode.C94_full_cache"
   ],
   "note": "As C93; C60 and C62 show the same for arbitrary layers with weight 0 for masked keys, here the whole network and the bias of -1e10 are concrete."
  },
  {
   "property": "C95",
   "status": "proved",
   "theorems": [
    "Verif.DecoderOnly.C95_same_logits",
    "Verif.DecoderOnly.C95_packed",
    "Verif.DecoderOnly.C95_causal",
    "Verif.DecoderOnly.C95_prefill",
    "Verif.DecoderOnly.C95_packed_predict",
    "Verif.DecoderOnly.C95_score"
   ],
   "note": "As C93; C61 and C62 show the same for arbitrary layers with weight 0 for masked keys, here the whole network and the bias of -1e10 are concrete. Within a bidirectional prefix all later keys have the relative position bias of distance 0, since the biases are made with bidirectional=False."
  },
  {
   "property": "C96",
   "status": "proved",
   "theorems": [
    "Verif.PackedLoss.C96_loss",
    "Verif.PackedLoss.C96_gradient",
    "Verif.PackedLoss.C96_lm_loss",
    "Verif.PackedLoss.C96_total_tokens",
    "Verif.PackedLoss.C96_without_weights",
    "Verif.PackedLoss.C96_examples",
    "Verif.PackedLoss.C96_position"
   ],
   "note": "Real arithmetic, no dropout. Packing itself is seqio's; its result is described in the statement (packRow)."
  },
  {
   "property": "C97",
   "status": "proved",
   "theorems": [
    "Verif.DsCkpt.C97_resume",
    "Verif.DsCkpt.C97_other_shards",
    "Verif.DsCkpt.C97_orbax",
    "Verif.DsCkpt.C97_orbax_diverges",
    "Verif.DsCkpt.C97_orbax_other"
   ],
   "note": "Saving and loading one iterator is clu's and TensorFlow's (trusted): load gives the state that save had. The layouts are those of C42. The Orbax clauses are the exact behaviour, which contradicts what a user expects when a replica set has several processes."
  },
  {
   "property": "C98",
   "status": "proved",
   "theorems": [
    "Verif.OrbaxMgr.C98_path",
    "Verif.OrbaxMgr.C98_step",
    "Verif.OrbaxMgr.C98_step_legacy",
    "Verif.OrbaxMgr.C98_manager",
    "Verif.OrbaxMgr.C98_config_findings"
   ],
   "note": "Default directory prefix; the file system and Orbax itself are parameters. C98_step_legacy and C98_config_findings prove the deviations."
  },
  {
   "property": "C99",
   "status": "proved",
   "theorems": [
    "Verif.Beam.C99_found",
    "Verif.Beam.C99_one_beam",
    "Verif.Beam.C99_exhaustive",
    "Verif.Beam.C99_not_monotone"
   ],
   "note": "Exact arithmetic; likelihoods and scores of the sequence above NEG_INF; default min_log_prob and no max_decode_step. C99_exhaustive is for one initial index in all rows. C99_not_monotone gives the counterexamples for more beams and for greedy decoding."
  }
 ]
}