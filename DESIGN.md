# Formal model of t5x in Lean 4

Source: google-research/t5x (pinned copy in /repo, read as text only; never built or run).
Model and proofs: `lean/Verif/**`. Properties: `properties.jsonl`. Status of each: `MANIFEST.json`. Seeded bugs: `seeded/LOG.jsonl`.

## Layout

* `Verif/Model/*`  - transcriptions of the Python functions, each definition with file and lines.
* `Verif/Spec/*`   - small independent specifications (what a user would write down).
* `Verif/Lemmas/*` - helper lemmas.
* `Verif/Props/*`  - the property theorems, each with an `example` showing that its hypotheses can be met.

`Verif.lean` imports all `Props` modules; `lake build` in `lean/` checks everything.

## Conventions

* Python `int` is `Nat`/`Int`; int32/float32 bit patterns only where the property is about them (`BinarySearch`).
* A Python exception is a value (`Except`/`Option`/an error constructor); every error branch that a property mentions is modelled.
* A loop is a fold, structural recursion, recursion with fuel shown to suffice, or an explicit transition relation.
* A crash is a prefix of the list of primitive operations of a run.
* External calls (network, sampler, regular expressions, tensorstore, file system) are parameters, or small models named below.
* Where a property is false of the code, the negation is proved with a concrete witness, and the positive theorem has the hypothesis that excludes it. If a substantial part of the original statement is lost that way, the claim is `partial` and the main theorem has the suffix `_partial`; otherwise the property text in `properties.jsonl` states the restricted claim.

## Trusted base

* Lean 4.33.0's kernel, and the axioms `propext`, `Classical.choice`, `Quot.sound` (see "Axioms" for each theorem). No axioms of our own, no `sorry`, no `native_decide`, no `bv_decide`.
* That each definition transcribes the lines it cites. The code was read, not run; nothing connects the Lean text to the Python text mechanically.
* The following behaviour of libraries, modelled from their documentation or source:
  * numpy/jax: `reshape`, `transpose`, `swapaxes`, `delete`, `argsort` (a parameter that returns a sorting permutation), broadcasting, `mean`, `expand_dims`, `where`, `one_hot`, `dynamic_slice` (clamping), `cumsum`, `lax.top_k` (decreasing, lower index first), `lax.cond/fori_loop/while_loop/scan`, `tree_flatten/unflatten/map` (dict keys sorted, dataclass fields in order), `host_local_array_to_global_array` (shards in order), `PartitionSpec` (equal blocks).
  * flax: `flatten_dict`, `unflatten_dict`, `to_state_dict`, `from_state_dict`, `ModelParamTraversal`, `partitioning.get_axis_names`.
  * msgpack `Unpacker` on the level of headers and atoms; `ts.Spec` path normalisation; `clu` `Average`/`LastValue`; `ThreadPoolExecutor` futures; `asyncio.Condition` (bodies under the lock are atomic); `tf.data` `shard/batch/take/repeat`; `tf.train.Checkpoint` as two files written one after the other; `gfile` operations (rename atomic except on `gs://`, `rmtree` deletes file by file, `GFile(path, 'w')` truncates).
* Arithmetic: exact (ordered fields, reals, or an arbitrary commutative monoid) except in `BinarySearch` (bit patterns), `RelPos` (the float logarithm is any function with three stated properties) and `Adafactor` (scalars with arbitrary operations). Rounding, overflow and NaN are outside, unless a theorem says otherwise.
* Attention: in `Masks` layers are arbitrary functions that respect their mask; in `KVCache` attention is concrete and a masked key has weight 0 (in float32 the exponential of a logit lowered by 1e10 is 0); in `Transformer` the whole network is concrete, with the mask as a bias of -1e10 and an exponential that underflows, and the weight 0 is proved.
* Sharding annotations, compilation, donation, profiling, logging and timing are not modelled. Multi-host runs are modelled where a property is about them (checkpoint writes between barriers, mesh and chunk layout, inference shards); otherwise one process stands for all.

## What is modelled

| Code | Model | Properties |
|---|---|---|
| `binary_search.py` (all) | `BinarySearch` | C01-C05 |
| `decoding.py`: `temperature_sample`, `_temperature_sample_single_trial` | `Sampling` | C06 |
| `decoding.py`: `top_k_two_stage` | `TopK` | C07 |
| `decoding.py`: `beam_search`, `beam_init`, gathering, brevity penalty | `Beam` | C08, C55, C56 |
| `decoding.py`: prompt alignment; `models.py`: `remove_prefix` | `Align` | C09, C10 |
| `examples/t5/layers.py`: masks, relative position buckets; `network.py` stacks | `Masks`, `RelPos` | C11, C12, C54 |
| `examples/t5`, `examples/decoder_only`: attention with cache, prefill; `models.py`: `_compute_kv_cache`, `_compute_logits_from_slice` | `KVCache` | C60, C61 |
| `models.py`: `predict_batch_with_aux` with `temperature_sample`, `score_batch` | `Score` | C62 |
| `models.py`: `predict_batch_with_aux` with `beam_search` | `ScoreBeam` | C63 |
| `losses.py` (all) and `models.py`: `count_packed_examples` | `Loss`, `LossWeights` | C13-C16 |
| `state_utils.py` (all) | `StateDict` | C17-C19 |
| `checkpoints.py`: `Checkpointer.save`, pruning, pinning, restore path choice, `SaveBestCheckpointer` | `CkptDir` | C20-C22, C26 |
| `checkpoints_utils.py`, step directory names | `CkptName` | C23 |
| `checkpoints.py`: `Checkpointer.save`, `restore`, `_read_ts`, parameter infos, casting of parameters | `SaveRestore` | C64 |
| `checkpoints.py`: `_choose_chunk_shape`, `_BytesConditionVariable`, tensorstore paths | `Chunk`, `Bytes`, `TsPath` | C24, C25, C29 |
| `utils.py`: restore configurations, `TrainStateInitializer`; `train.py` initial state | `RestoreCfg` | C27 |
| `checkpoint_utils.py`: msgpack key reader | `Msgpack` | C28 |
| `trainer.py`: `train`, `train_with_lr`, `accumulate_grads_microbatched`, metrics, early stopping | `Train`, `Metrics`, `EarlyStop` | C30-C33, C57 |
| `train.py`: `train` control flow, `run_actions` | `TrainLoop` | C34, C35, C58 |
| `utils.py`: `get_infer_fn`; `infer.py`: `infer_task`, merging, executor | `Infer`, `InferRestart`, `Executor` | C36-C38 |
| `eval.py` | `EvalAll` | C39 |
| `partitioning.py`: meshes, `LocalChunker`, data layout; `contrib/moe/partitioning.py` | `Mesh`, `LocalChunk`, `MoeMesh`, `NDArray` | C40-C43 |
| `utils.py`: learning rate schedules, vocabulary rounding | `Schedule` | C44, C45 |
| `optimizers.py`: `OptimizerDef`, `OptaxWrapper` serialisation, `MultiOptimizer` | `OptaxState`, `MultiOpt` | C46, C47 |
| `adafactor.py` | `Adafactor`, `ApplyGrad` | C48, C59 |
| `checkpoint_importer.py` | `Importer` | C49 |
| `contrib/moe/training_utils.py` | `NamedTree` | C50 |
| `gin_utils.py`: `rewrite_gin_args` | `GinArgs` | C51 |
| `train_state.py` | `TrainState` | C52 |
| `models.py`: handling of `decoder_params` | `DecParams` | C53 |
| `contrib/calm/models.py`: early exit decoding, confidences; `contrib/calm/decoding.py`: records of the sampling loop | `Calm` | C65, C66 |
| `export_lib.py`: preprocessors, postprocessor, warmup examples | `Export` | C67-C69 |
| `interactive_model.py`: train loop, batches, inference | `Interactive` | C70, C71 |
| `checkpoints.py`: `Checkpointer.restore` with state transformations and `fallback_state` | `Fallback` | C72 |
| `contrib/moe/checkpoints.py`: `_read_upcycle_ts` | `Upcycle` | C73 |
| `optimizers.py`: `OptaxStatePartitionRules`, `OptaxWrapper.derive_logical_axes` | `OptaxAxes` | C74 |
| `partitioning.py`: `standard_logical_axis_rules`, `PjitPartitioner.get_mesh_axes`, `data_partition_spec`; `contrib/moe/partitioning.py`: `standard_logical_axis_rules`; flax `logical_to_mesh_axes` | `AxisRules` | C75 |
| `utils.py`: `override_params_axes_names`, `_RegexMap` | `AxesOverride` | C76 |
| `models.py`: `compute_base_metrics`, the segment ids of `loss_fn` | `BaseMetrics` | C77 |
| `contrib/moe/models.py`: `_moe_loss_fn`, `_extract_diversity_metrics`, `_expert_losses`, `_expert_metrics` | `MoeLoss` | C78 |
| `utils.py`: `_hashed_index`, `_get_index_mappings`, `_create_sharded_array` | `ShardedArray` | C79 |
| `trainer.py`: `_AsyncTimer`, `MetricsManager.start_duration_timer`, `write_metrics_summary`, `write_scalars`, `flush` (threads) | `AsyncMetrics` | C80 |
| `adafactor.py`: `standard_logical_factor_rules`, `factor_name_to_factordim`, `set_param_axes`, `derive_logical_axes`; `contrib/moe/adafactor_utils.py`; `contrib/moe/partitioning.py`: `get_logical_axes`, `_infer_state_filter_fn`, `compute_num_model_partitions`, `override_partition_specs` | `AdafactorAxes` | C81 |
| `utils.py`: `get_dataset`, `get_dataset_inner`, `get_training_eval_datasets` | `EvalData` | C82 |
| `utils.py`: `get_vocabulary`, `verify_matching_vocabs` | `Vocabs` | C83 |
| `infer.py`: `write_inferences_to_file` | `InferLines` | C84 |
| `trainer.py`: `BaseTrainer.eval`, `compile_eval` | `TrainerEval` | C85 |
| `trainer.py`: `WeightMetricsComputer` | `WeightMetrics` | C86 |
| `checkpoints.py`: `load_t5x_checkpoint`, `fake_param_info`, `_get_optimizer_state_dict`; `checkpoint_importer.py`: `LazyAwaitableArray` | `LoadT5x` | C87 |
| `checkpoints.py`: `OrbaxCheckpointManagerInterface.save`, `restore` with `_construct_save_args`, `_construct_restore_args`, `_construct_orbax_param_infos`, `_construct_orbax_restoration_transforms`, `_maybe_make_sharded_array` | `Orbax` | C88 |
| `decoding.py`: `cache_map`, `add_beam_dim`, `flatten_beam_dim`, `unflatten_beam_dim`, `flat_batch_beam_expand`, `cache_gather_beams`, `gather_beams`, `beam_init` (cache) | `BeamDims` | C89 |
| `contrib/calm/models.py`: `loss_fn`, `loss_fn_meta_cls`, `loss_fn_meta_cls_geom_like` | `CalmLoss` | C90 |
| `adafactor.py`: `apply_param_gradient`, `_decay_rate_pow` with real numbers | `AdafactorNum` | C91 |
| `decoding.py`: choice of a token in `_temperature_sample_single_trial` (temperature, top-k, top-p, `rescale_log_probs`) within the loop | `SampleToken` | C92 |
| `examples/t5/network.py` (all but decoding with a cache), `examples/t5/layers.py`: `DenseGeneral`, `LayerNorm`, `Embed`, `MlpBlock`, `MultiHeadDotProductAttention`, `RelativePositionBiases` with numbers | `Transformer` | C93 |
| The same network decoding with key/value caches, in `EncoderDecoderModel.predict_batch_with_aux` | `T5Decode` | C94 |
| The decoder-only network of `examples/decoder_only`: whole rows, prefilled prompts, decoding; `DecoderOnlyModel.predict_batch_with_aux` | `DecoderOnly` | C95 |
| The training loss with these networks: `loss_fn`, `_compute_logits` of both models | `PackedLoss` | C96 |
| Checkpoints of the input pipeline: dataset iterators in `Checkpointer`, `DatasetCheckpointHandler` | `DsCkpt` | C97 |
| What the Orbax manager restores and how it is configured: `detect_checkpoint_type`, head of `OrbaxCheckpointManagerInterface.restore`, `create_orbax_checkpoint_manager` | `OrbaxMgr` | C98 |
| Which sequences beam search finds: `beam_search` compared with greedy and exhaustive search | `Beam` (`Spec/BeamOpt`) | C99 |
| The network of `examples/scalable_t5` (per-layer bias tables, scanned layers, kernels with separate head axes), whole rows and token by token | `ScalableT5` | C100 |
| The network of `contrib/gpu/t5` (`scale_attn_logits`, embedding by gather) | `GpuT5` | C101 |
| `train.py` as a whole with kills and restarts: schedule, train state, checkpoint directory and iterators together | `TrainJob` | C102 |
| The distribution of the outputs of `temperature_sample` (on the model of C92; the random numbers are independent Gumbel variables) | `SampleToken`, `Sampling` (`Spec/SampleLaw`) | C103 |
| `loss_fn` under `accumulate_grads_microbatched`, with every loss normalising factor (the derivative stands for `jax.grad`) | `MicroLoss`, `PackedLoss`, `Train` (`Spec/MicroLoss`) | C104 |
| `examples/t5` once more, as written on whole arrays with a batch dimension: axes, reshapes, broadcasting, einsum strings, layout of the caches; shown to be the row-wise network of C93 and C94 | `ArrayOps`, `ArrayT5` (`Spec/ArrayT5`) | C105 |
| Evaluation with the interactive model: `evaluate_with_preprocessors`, `_compute_metrics`, `get_dataset_from_natural_text_examples`, the batch of `train_step_with_preprocessors` | `InteractiveEval` | C106 |
| Exported models end to end: preprocessing, then `score_batch` or `predict_batch_with_aux` with the T5 network | `ExportScore`, `PredictIndep` | C107, C108 |
| Offline inference end to end: `get_infer_fn` with the T5 network as its step | `OfflineInfer` | C109 |
| Prediction with beam search and the T5 network, also in offline inference: independence of the batch | `BeamIndep` | C110 |
| Prediction with a decoder-only model from batch to continuations: prompts, several decodes, best decode, prefix removal | `LmPredict` | C111 |
| `examples/decoder_only` once more, as written on whole arrays: prefix masks, caches with an index per row, prefilling, cached biases; shown to be the row-wise network of C95 | `ArrayLm` (`Spec/ArrayLm`) | C112 |
| `examples/t5` and `examples/decoder_only` in training: every place of dropout with its random bits, and the expected loss | `Dropout` (`Spec/Dropout`) | C113 |
| `module.init` of `examples/t5` and `examples/decoder_only` (`get_initial_variables`): parameters, shapes and axes; composition with the partitioning rules, Adafactor and the T5 importer | `InitT5`, `InitImport` (`Spec/InitT5`, `Spec/InitImport`) | C114 |
| Adafactor on stacked parameters (scanned layers) against separate ones | `AdafactorStack` (`Spec/AdafactorStack`, model: `Adafactor`) | C115 |
| `module.init` of `examples/scalable_t5` with scanned and with separate layers; composition with the partitioning rules and the factor rules | `InitScalable` (`Spec/InitScalable`) | C116 |
| `FlaxOptimTrainState.create` and repeated `apply_gradient` with Adafactor on the whole tree of parameters of `examples/scalable_t5` | `ScanTrain` (`Spec/ScanTrain`) | C117 |
| training steps of the T5 models on packed and on padded batches (composition of `Train`, `MicroLoss` and `PackedLoss`) | `PackedTrain` (`Spec/PackedTrain`) | C118 |
| `contrib/moe/trainer.py`: `MoeTrainer` and the default of `sharded_match_fn` | `MoeTrain` (`Spec/MoeTrain`) | C119 |
| `models.py`: `loss_fn` with its metrics, for packed and padded batches | `PackedMetrics` (`Spec/PackedMetrics`) | C120 |
| `export_lib.py`: dual encoder preprocessor, `PreprocessorFnFromTask`, warmup file, output directories, fake inputs, polymorphic shapes | `ExportFront` | C121 |
| `checkpoints.py`: `restore_from_tf_checkpoint`, `convert_from_tf_checkpoint`; `scripts/convert_tf_checkpoint.py` | `ConvertTf` | C122 |
| `utils.py`: `RestoreCheckpointConfig.__post_init__`, `LegacyCheckpointManager`, Orbax managers, `restore`, `create_checkpoint_manager_and_restore`, `TrainStateInitializer.from_checkpoint*`; the start of `train.py`, `eval.py`, `infer.py`, `export_lib.py`, `interactive_model.py` | `StartState` | C123 |
| `partitioning.py`: `get_cpu_mesh`, `get_gpu_mesh`, `default_mesh`; jax's `create_hybrid_device_mesh` as a trusted description | `HybridMesh` | C124 |
| `train.py` with the files of `checkpoints.py` (`Checkpointer.save`, `restore`): the composition of `TrainJob`, `SaveRestore`, `StartState` | `JobFiles` | C125 |
| `train.py` with `trainer.py`, `train_state.py` and `checkpoints.py`: the composition of `JobFiles`, `Train`, `TrainState`, `PackedTrain` | `TrainedJob` | C126 |
| `infer.py` 495-620 with `train.py` and `checkpoints.py`: the composition of `TrainedJob`, `SaveRestore`, `Infer`, `OfflineInfer` | `TrainInfer` | C127 |
| `adafactor.py` 185-190, 450-462, 580-627 with `train_state.py` and `optimizers.py` 65-79, 137-155: the train state of a job with Adafactor (composition of `Adafactor`, `ApplyGrad`, `TrainedJob`) | `AdafactorJob` | C128 |
| `utils.py` 1387-1473: `log_model_info`, with `state_utils.get_name_tree` | `ModelInfo` | C129 |
| `binary_search.py` 28-299 on arrays of any rank: `int32_bsearch`, `float32_bsearch`, `topk_mask`, `topp_mask` with their axes and broadcasting | `BatchSearch` | C130 |
| `checkpoints.py` 1382-1457: `populate_metrics_for_steps`, composed with `SaveBestCheckpointer` 1566-1613 | `StepMetrics` | C131 |
| `eval.py` 62-180: `InferenceEvaluator`, composed with the inference job on a checkpoint | `InferEval` | C132 |
| `optimizers.py` 390-425: `OptaxWrapper.init_state`, `apply_gradient`, composed with training and inference jobs | `OptaxJob` | C133 |
| `optimizers.py` 636-796: `MultiOptimizer` over many steps of the trainer, `set_param_axes`, `derive_logical_axes` | `MultiRun`, `MultiAxes` | C134 |
| `infer.py` 101-170, `interactive_model.py` 1109-1168: tasks registered on the fly | `AdhocTask` | C135 |
| `train.py` 545-607, `interactive_model.py` 1172-1276 (arguments of `train` only): runs that only evaluate | `EvalOnly` | C136 |
| `precompile.py` 46-146 and `train.py` 277-281, 621-641: shapes of the batches compiled for | `Precompile` | C137 |
| `decoding.py` 346-389 and 431-455: limits on the number of steps | `DecodeLimit` | C138 |

Not modelled: network initialisation; dropout of the scalable network and the contrib networks; the scripts of `contrib/gpu`, the other parts of `interactive_model.py` and `export_lib.py`, `precompile.py`, `config_utils.py`, Orbax itself and what its managers keep and delete, seqio (data pipeline), gin itself, and everything compiled by XLA.


## Properties and theorems

For each property: status, theorems (the prefix `Verif.` is dropped), and what to know about the statement.

* **C01 int32 binary search finds the exact boundary** (proved). `BinarySearch.C01_int32_bsearch`. 
* **C02 int32/float32 bit reinterpretation is an order-preserving bijection** (proved). `BinarySearch.C02_bit_pattern_order`. 
* **C03 float32 binary search finds the exact boundary** (proved). `BinarySearch.C03_float32_bsearch`. 
* **C04 top-k mask keeps exactly the top k** (proved). `BinarySearch.C04_topk_mask`, `BinarySearch.C04_topk_count`, `BinarySearch.C04_neg_inf_replaced`. C04_neg_inf_replaced records that -inf entries are always overwritten, also when k exceeds the number of finite entries.
* **C05 top-p mask keeps the smallest sufficient nucleus** (proved). `BinarySearch.C05_topp_mask`. The probability sum is an abstract monotone function; floating-point summation is in the trusted base.
* **C06 sampling decode preserves prompts and stops cleanly** (proved). `Sampling.C06_termination`, `Sampling.C06_rows`, `Sampling.C06_num_decodes`, `Sampling.C06_gap_prompt_lost`, `Sampling.C06_zero_steps`. For right-padded prompts, eos != 0 and a start index below the limit; the model call and the sampler are an arbitrary function of the loop state; log-probabilities add exactly. C06_gap_prompt_lost: a prompt with interior padding loses its later tokens. C06_zero_steps: with max_decode_steps=0 one token is still generated.
* **C07 two-stage top-k equals top-k** (proved). `TopK.C07_top_k_two_stage`, `TopK.C07_any_lanes`. lax.top_k is modelled from its documentation (value descending, lower index first); no NaN.
* **C08 beam search early termination loses nothing** (proved). `Beam.C08_bound`, `Beam.C08_early_stop`, `Beam.C08_batch`, `Beam.C08_length`, `Beam.C08_needs_length`, `Beam.brevity_good`. Ordered-field arithmetic; log-probabilities at most 0, any brevity penalty that is positive and monotone (alpha >= 0). Futures within the maximal length of the row; C08_needs_length shows that the test is not valid beyond it, where a row with a longer prompt than another one can get.
* **C09 prompt alignment is lossless** (proved). `Align.C09_right_align`, `Align.C09_left_align`, `Align.C09_round_trip`. The literal round trip is for rows that start with a token; leading padding such as the BOS zero moves to the end of the row.
* **C10 prefix removal** (proved). `Align.C10_remove_prefix`. 
* **C11 decoder attention mask semantics** (proved). `Masks.C11_decoder_mask`, `Masks.C11_causal_stack`. C11_causal_stack lifts the mask to any number of layers, each layer being an arbitrary function that respects its mask row.
* **C12 relative position buckets are valid and monotone** (proved). `RelPos.C12_unidirectional`, `RelPos.C12_bidirectional`, `RelPos.C12_bias`, `RelPos.exactLog_logLike`. num_buckets >= 2 (>= 4 bidirectional), max_distance above the exact range. The float logarithm is any function with three stated properties; exact arithmetic has them.
* **C13 hand-written loss gradient is the true gradient** (proved). `Loss.C13_forward`, `Loss.C13_grad_logits`, `Loss.C13_gradient`, `Loss.C13_grad_targets`, `Loss.C13_soft_targets_sum`, `Loss.C13_one_token`. Real arithmetic. The cotangent of the z-loss output is ignored and the coefficient's gradient is 0 by design. The gradient of the logits needs targets that sum to one, which label smoothing violates for a vocabulary of one token only (C13_one_token).
* **C14 smoothed loss is nonnegative and consistent with hard labels** (proved). `Loss.C14_nonneg`, `Loss.C14_hard_labels`, `Loss.C14_tight`, `Loss.C14_weighted`. Real arithmetic, vocabulary of at least two tokens.
* **C15 per-sequence loss normalisation gives each packed sequence total weight 1** (proved). `LossWeights.C15_packed_weights`, `LossWeights.C15_sequence_total`, `LossWeights.C15_average_per_sequence`, `LossWeights.C15_names`, `LossWeights.C15_unpacked`. Weights from any ordered field, non-negative; padding only at the end of a row. C15_names and C15_unpacked add the names of the factors and rows that are not packed.
* **C16 packed example counting** (proved). `LossWeights.C16_count`. Rows with distinct contiguous non-zero ids followed by padding.
* **C17 restricting a restored state to the known parameters** (proved). `StateDict.C17_intersect`, `StateDict.C17_merge`, `StateDict.C17_merge_after_intersect`. No parameter may be called 'driver' outside tensorstore specs, and names contain no '/'; merging needs that no leaf of one state sits above a leaf of the other.
* **C18 assignment map transfers the right parameter** (partial). `StateDict.C18_assignment_partial`, `StateDict.C18_shadowed`, `StateDict.C18_first_rule_ignored`, `StateDict.C18_missing_error`, `StateDict.C18_require_all`, `StateDict.C18_resume_identity`, `StateDict.C18_nested`. The claim is false when the checkpoint has an unused entry with the target's own name (C18_shadowed); proved otherwise. Regular expressions are parameters.
* **C19 state dict flattening round trip** (proved). `StateDict.C19_round_trip`, `StateDict.C19_names`, `StateDict.C19_name_tree`. 
* **C20 checkpoint saves are atomic under crashes** (partial). `Ckpt.C20_latest_complete`, `Ckpt.C20_save_visible`, `Ckpt.C20_all_complete_partial`, `Ckpt.C20_keep_all`, `Ckpt.C20_crash_while_pruning`, `Ckpt.C20_gs_not_atomic`. The newest checkpoint is always complete after any history of saves and crashes (rename file systems). That every visible checkpoint is complete is false if a crash hits the deletion of an old one (C20_crash_while_pruning), and crash atomicity is false on gs:// (C20_gs_not_atomic).
* **C21 retention keeps the newest checkpoints and never a pinned one is lost** (proved). `Ckpt.C21_retention`, `Ckpt.C21_backward_save_lost`. C21_backward_save_lost records that saving a step lower than the retained ones deletes it at once.
* **C22 save-best retention keeps the best and the latest** (proved). `Ckpt.C22_save_best`. Metric values are a linear order (no NaN).
* **C23 checkpoint directory naming round trip** (proved). `Ckpt.C23_round_trip`, `Ckpt.C23_distinct`, `Ckpt.C23_all_steps`, `Ckpt.C23_tmp_ignored`, `Ckpt.C23_custom_prefix_not_listed`. Listing works only for the default prefix: C23_custom_prefix_not_listed.
* **C24 chunk shape is a divisor within the byte budget** (proved). `Chunk.C24_returns`, `Chunk.C24_tight`, `Chunk.C24_zero_dim`. A chunk shape is returned for every shape without zero dimension; for a zero-size dimension the negation is proved (IndexError).
* **C25 write-concurrency limiter** (partial). `Bytes.C25_never_exceeds`, `Bytes.C25_shared_limit`, `Bytes.C25_asserts`, `Bytes.C25_all_returned`, `Bytes.C25_progress`, `Bytes.C25_terminates`, `Bytes.C25_large_array_hangs`, `Bytes.C25_no_common_limit`. Proved for arrays smaller than the limit and one limiter. False in general: an array at least as large as the limit waits for ever, and limiters do not share a limit (both proved).
* **C26 restore step/path selection** (partial). `Ckpt.C26_selection_partial`, `Ckpt.C26_step_zero`, `Ckpt.C26_find_checkpoint`. An explicit restore step 0 is ignored and the newest step is restored (C26_step_zero); the claim holds for every other step.
* **C27 restore source precedence** (partial). `RestoreCfg.C27_first_config`, `RestoreCfg.C27_none`, `RestoreCfg.C27_training`, `RestoreCfg.C27_training_errors`, `RestoreCfg.C27_from_checkpoint`, `RestoreCfg.C27_other_dirs_ignored`. Precedence is proved in full. That each of several directories contributes its latest checkpoint is false: only the first directory with checkpoints is used (C27_other_dirs_ignored).
* **C28 checkpoint key reader** (proved). `Msgpack.C28_key_tree`, `Msgpack.C28_unique`, `Msgpack.C28_bytes_keys`, `Msgpack.C28_contains_ts_spec`. For string keys; bytes keys are misread (proved).
* **C29 parameter files do not collide** (partial). `TsPath.C29_distinct_partial`, `TsPath.C29_collision`, `TsPath.C29_write_place`, `TsPath.C29_bucket`, `TsPath.C29_local`, `TsPath.C29_read_place`. Distinctness holds for keys without '.', and fails with one (proved). Portability between local and gs:// directories is proved.
* **C30 training is resumable: splitting a run changes nothing** (proved). `Train.C30_steps`, `Train.C30_failure`, `Train.C30_rng`, `Train.C30_split`, `Train.trainStep_shape`, `Train.C30_one_step`. Metrics and state arithmetic exact; saving and restoring are a pair enc/dec with dec (enc s) = s.
* **C31 microbatching covers the batch exactly** (proved). `Train.C31_cover`, `Train.C31_assert`, `Train.C31_same_result`, `Train.C31_one_dropout_key`, `Train.C31_chain`. C31_same_result is for losses that are sums over examples, without dropout and mutables. With dropout the equivalence cannot hold: C31_one_dropout_key proves that all microbatches of a step are given the same dropout key. C31_chain says what is computed for an arbitrary loss.
* **C32 metric merging is order independent** (proved). `Metrics.C32_totals`, `Metrics.C32_order`, `Metrics.C32_summary`, `Metrics.C32_last`, `Metrics.C32_dict`, `Metrics.C32_from_values`, `Metrics.C32_no_merge_after_duration`. Exact addition (float rounding is outside the model).
* **C33 early stopping decision** (proved). `EarlyStop.C33_stop_iff`, `EarlyStop.C33_latch`, `EarlyStop.C33_missing`, `EarlyStop.C33_patience_one`. Without NaN. C33_patience_one: patience 0 or 1 stops at the first value.
* **C34 training loop runs and saves at the promised steps** (partial). `TrainLoop.C34_schedule_partial`, `TrainLoop.C34_last_extra_step_crashes`, `TrainLoop.C34_gap_needed`, `TrainLoop.C34_extra_steps_need_period`. The schedule claim is proved for all configurations whose checkpoint_steps satisfy GoodSteps; outside it is false, and the failures are proved.
* **C35 a stop request stops training** (partial). `TrainLoop.C35_no_training_after_stop`, `TrainLoop.C35_early_return_only_if_asked`, `TrainLoop.C35_stop_saves_partial`, `TrainLoop.C35_stop_without_save`, `TrainLoop.C35_train_eval_ignored`. Any request stops training only if it is the last answer at that step; a TRAIN_EVAL request is overwritten by INFER_EVAL (proved), and a stop at an epoch boundary off the checkpoint period is not saved (proved).
* **C36 batched sharded inference returns each example's own result** (proved). `Infer.C36_results`, `Infer.C36_map`, `Infer.C36_aux`, `Infer.C36_empty`, `Infer.C36_not_sorted`. For batch sizes that the number of shards divides (get_data_layout enforces it) and a step that answers row by row. infer_fn alone does not restore the order (C36_not_sorted); the sort by index does. An empty data set is an error (C36_empty).
* **C37 inference restart produces the complete output** (partial). `InferRestart.C37_markers`, `InferRestart.C37_restart_partial`, `InferRestart.C37_completes`, `InferRestart.C37_output`, `InferRestart.C37_truncated`, `InferRestart.C37_stuck`, `InferRestart.C37_stuck_markers`, `InferRestart.C37_too_many_chunks`. With markers: every crash point. With iterator checkpoints: every crash point outside the removal of the temporary directory, inside which the claim is false (C37_truncated). At most 100000 chunks (C37_too_many_chunks). Crash points after which no restart succeeds are exhibited (C37_stuck, C37_stuck_markers).
* **C38 write failures are reported** (proved). `Executor.C38_reported`, `Executor.C38_synchronous`. Tasks terminate and are not cancelled. C38_synchronous: the inverted wait flag makes every submit wait for its own task.
* **C39 continuous evaluation evaluates every checkpoint once** (proved). `EvalAll.C39_once`, `EvalAll.C39_order`, `EvalAll.C39_complete`, `EvalAll.C39_first_run`, `EvalAll.C39_blank`, `EvalAll.C39_torn_record`. The record is modelled as text. Hypotheses: no blanks in directory names, native checkpoints, the process does not die while the record is being written. Each is needed (C39_blank, C39_torn_record); the very first run looks at one directory only (C39_first_run).
* **C40 device mesh is a permutation of the devices** (proved). `Mesh.C40_mesh`, `Mesh.C40_rows`, `Mesh.C40_hosts`, `Mesh.C40_succeeds`, `Mesh.C40_default`. Topologies are boxes of devices (TPU with chip coordinates, or process x local device). C40_hosts in the reordered (Z-major) case needs hosts owning one layer of chips with all cores; GPUs and several slices are C124.
* **C41 local chunks tile the global array** (proved). `LocalChunk.C41_tiles`, `LocalChunk.C41_holds`, `LocalChunk.C41_tail_lost`. Hosts own equal boxes of mesh positions (alignment is derived). Divisibility is needed: C41_tail_lost.
* **C42 data shards partition the batch** (proved). `LocalChunk.C42_layout`, `LocalChunk.C42_rejects`, `LocalChunk.C42_moe`. Same host-box hypothesis; also proves one first host per shard and that shard ids agree with the rows the devices hold.
* **C43 expert mesh axis is the largest feasible divisor** (proved). `MoeMesh.C43_axis`, `MoeMesh.C43_devices`, `MoeMesh.C43_zero`. Built on the base mesh of C40.
* **C44 learning-rate schedule shape** (proved). `Schedule.C44_product`, `Schedule.C44_floor`, `Schedule.C44_unknown`, `Schedule.C44_default`, `Schedule.C44_default_shape`, `Schedule.C44_cosine`. Over the reals, for positive warmup_steps, steps_per_decay and steps_per_cycle and a non-negative decay_factor (C44_floor and C44_unknown without these). The unknown-factor check happens when the schedule is first evaluated, not when it is created.
* **C45 vocabulary rounding** (proved). `Schedule.C45_least_multiple`. 
* **C46 optimizer state serialisation round trip** (proved). `OptaxState.C46_round_trip`, `OptaxState.C46_no_empty`, `OptaxState.C46_missing`, `OptaxState.C46_plain`. States are represented by their flax state dicts; flax's from_state_dict and flatten/unflatten are modelled.
* **C47 multi-optimizer updates each parameter by its own optimizer only** (proved). `MultiOpt.C47_apply`, `MultiOpt.C47_overlap`, `MultiOpt.C47_init`, `MultiOpt.C47_hyper`, `MultiOpt.C47_short_hyper`. Traversal filters look at the path only; sub-optimizers are arbitrary functions that return leaves where the parameters have theirs. A hyper-parameter list that is too short silently skips optimizers (C47_short_hyper).
* **C48 Adafactor accumulator shapes are stable** (proved). `Adafactor.C48_update`, `Adafactor.C48_dims`, `Adafactor.C48_run`, `Adafactor.C48_nan_free`, `Adafactor.C48_batch`, `Adafactor.C48_axis_rules`. Scalars are an arbitrary type with arbitrary operations; numpy/jax broadcasting, mean, expand_dims, delete and where are modelled; argsort is a parameter that returns a sorting permutation. Also proved: batched slices never influence each other, and NaN never enters with skip_nan_updates.
* **C49 checkpoint translation is total and deterministic** (proved). `Importer.C49_first_rule`, `Importer.C49_apply`, `Importer.C49_unmatched`, `Importer.C49_t5_names`, `Importer.C49_keys_distinct`, `Importer.C49_t5_import`, `Importer.C49_collision`, `Importer.C49_missing_slots`, `Importer.C49_slots_complete`, `Importer.C49_relpos`, `Importer.C49_state_dict`, `Importer.C49_missing_unnoticed`. Variable names are modelled as '/'-separated components, regexes component by component. Refuted and recorded: decoder/transformer names of the same parameter collide (C49_collision) and variables missing from the checkpoint go unnoticed (C49_missing_unnoticed).
* **C50 named tree mapping touches exactly the matching leaves** (proved). `NamedTree.C50_map`, `NamedTree.C50_scale`, `NamedTree.C50_no_leaves`. Trees of dicts and dataclasses with distinct non-empty keys not ending in a slash; a tree without leaves raises (C50_no_leaves).
* **C51 gin flag rewriting** (proved). `GinArgs.C51_rewrite`, `GinArgs.C51_positions`. 
* **C52 train state split/restore** (proved). `TrainState.C52_create`, `TrainState.C52_round_trip`, `TrainState.C52_replace_step`, `TrainState.C52_inference`, `TrainState.C52_logical`, `TrainState.C52_unnamed_mutables`. Frozen and plain dicts are not told apart; arrays and axis metadata are opaque. Recorded: a mutable collection without axes is accepted and then missing from the logical axes (C52_unnamed_mutables).
* **C53 sharing decoder parameters between prediction calls** (proved). `DecParams.C53_independent`, `DecParams.C53_rng`, `DecParams.C53_other_models`. A call is modelled by the keyword arguments that reach the decoding function. The unrestricted claim (two independent calls) is false: C53_rng and C53_other_models say what happens instead.
* **C54 packed examples do not influence each other** (proved). `Masks.C54_packing_isolation`, `Masks.C54_leak_without_encoder_tokens`. The example must have at least one real encoder token: otherwise its cross-attention row is fully masked and the claim is false (C54_leak_without_encoder_tokens).
* **C55 beam search scores are those of the returned sequences** (proved). `Beam.C55_finished_score`, `Beam.C55_live_score`, `Beam.C55_eos_in_prompt`. Teacher-forced prompts must not contain EOS: C55_eos_in_prompt proves that otherwise a truncated prompt wins with score 0. Entries at the NEG_INF level are empty slots and excluded.
* **C56 beam search returns different sequences** (proved). `Beam.C56_distinct`. As C55.
* **C57 interrupted training equals uninterrupted training** (proved). `Train.C57_restarts`, `Train.C57_needs_dataset`. Saving and restoring are a pair enc/dec with dec (enc s) = s, and the data set position is saved; C57_needs_dataset proves that the claim fails without save_dataset.
* **C58 checkpoints never lie about the step** (proved). `TrainLoop.C58_faithful`, `TrainLoop.C58_preempted`. No hypotheses on configuration or environment. trainer.train is all or nothing: it assigns train_state only after its loop (trainer.py:570), so a preempted block is not part of the saved state.
* **C59 Adafactor steps pair every parameter with its own state and gradient, and clip by the global norm** (proved). `ApplyGrad.C59_apply`, `ApplyGrad.C59_clip`, `ApplyGrad.C59_init`. The per-parameter update is arbitrary (C48 covers Adafactor's). Clipping over the reals: no rounding, no NaN; 1/0 is infinity.
* **C60 incremental decoding equals the whole-sequence forward pass** (proved). `KVCache.C60_incremental`, `KVCache.C60_needs_nonpadding`. Attention is modelled concretely in real arithmetic; a masked key has weight 0 (in the code its logit gets -1e10, whose exponential is 0 in float32). Norms, projections, MLP and cross-attention are arbitrary functions of one position. The hypothesis on the targets is needed (C60_needs_nonpadding).
* **C61 prefilling the cache with the prompt does not change the logits** (proved). `KVCache.C61_prefill`, `KVCache.C61_padding_in_prompt`. Same model of attention as C60. A padding token inside the prompt makes the initial index too small (C61_padding_in_prompt).
* **C62 the score returned with a sample is the model's score of that sample** (proved). `Score.C62_encdec`, `Score.C62_decoder_only`, `Score.C62_padding_sampled`. Composes C06, C60, C61 and the loss model; real arithmetic. num_decodes=1 (C06_num_decodes covers the expansion). The default rescale_log_probs=True reports log-probabilities under the rescaled logits instead and is not covered. The condition on padding is needed (C62_padding_sampled).
* **C63 the score returned by beam search is the model's score of the returned sequence** (proved). `Score.C63_encdec`, `Score.C63_decoder_only`. Composes C08 and C55 (beam search), C09 (alignment), C60, C61 and the loss model; real arithmetic. Rows with a longer prompt than another row of the batch may be searched beyond their maximal length and are not covered in the decoder-only theorem.
* **C64 a saved train state is restored as it was** (proved). `SaveRestore.C64_round_trip`, `SaveRestore.C64_sound`, `SaveRestore.C64_second_save`, `SaveRestore.C64_dot_collision`, `SaveRestore.C64_uint16`, `SaveRestore.C64_no_save_dtype`, `SaveRestore.C64_shape_not_checked`. Without state transformations and fallback state (C17, C18). Hypotheses are needed: C64_dot_collision, C64_uint16 (saved but not restorable), C64_no_save_dtype. C64_shape_not_checked records that unpartitioned arrays are accepted with any shape. tensorstore and jax array serialisation are modelled as a map from places to whole arrays.
* **C65 early exit decoding takes the first exit at which every example is confident** (proved). `Calm.C65_exit`, `Calm.C65_all_layers`, `Calm.C65_min_exit`, `Calm.C65_softmax_max`, `Calm.C65_softmax_diff`, `Calm.C65_threshold_one`, `Calm.C65_oracle`, `Calm.C65_decodes`, `Calm.C65_records`, `Calm.C65_min_exit_hangs`, `Calm.C65_position_ignored`, `Calm.C65_prefilled_mixes`. The network is not in the repository and is a parameter. Findings: min_exit beyond the last layer never ends; position_adjusted_threshold has no effect; with a prefilled cache records of other positions are overwritten.
* **C66 after an early exit the skipped layers see the state of the last layer run** (partial). `Calm.C66_propagation_partial`, `Calm.C66_wrong_state`, `Calm.C66_oracle_cache_partial`, `Calm.C66_oracle_reruns`. False in general: after an exit that is not the first one the skipped layers get the hidden state of the first exit (C66_wrong_state), and oracle_cache runs the last layers twice for longer exit intervals (C66_oracle_reruns). Proved for exits at the first exit point, and for oracle_cache with exit interval 1.
* **C67 an exported encoder-decoder model computes the features of every request row exactly** (proved). `Export.C67_features`, `Export.C67_shift`, `Export.C67_invalid`, `Export.C67_bucket_last_token`, `Export.C67_tokenized_eos`, `Export.C67_split`, `Export.C67_split_absent`. The tokenizer is a parameter. Findings: a target row that fills its bucket loses its last token from the decoder inputs when batched with a longer one (C67_bucket_last_token); for padded tokenized inputs EOS comes after the padding (C67_tokenized_eos).
* **C68 an exported decoder-only model sees exactly the prompt of the request** (partial). `Export.C68_prompt`, `Export.C68_eos_after_padding`, `Export.C68_targets_partial`, `Export.C68_targets_fail`, `Export.C68_unequal`. Proved for the feature 'inputs' and equally long rows, and for 'targets' with one row. False in general: a request of several rows with the feature 'targets' fails (C68_targets_fail), texts with different numbers of tokens fail (C68_unequal), and EOS is put after the padding, which then becomes prompt and loss (C68_eos_after_padding).
* **C69 token counts, warmup examples, decoder parameters and named outputs of exported models are right** (proved). `Export.C69_before_eos`, `Export.C69_warmup`, `Export.C69_warmup_complete`, `Export.C69_warmup_exact`, `Export.C69_batch`, `Export.C69_decoder_params`, `Export.C69_no_decoder_params`, `Export.C69_names`. Findings: random tokens of exactly the wanted number are refused (C69_warmup_exact); an empty specification of decoder parameters takes all arguments away from the preprocessor (C69_no_decoder_params).
* **C70 the interactive train loop trains on the given batches for the given number of steps** (proved). `Interactive.C70_batches`, `Interactive.C70_too_few`, `Interactive.C70_loop`, `Interactive.C70_single_batch`. Findings: if the number of batches is smaller than num_steps and does not divide it, the remaining steps are left out (C70_too_few); a single batch for prediction, scoring or evaluation is not used, the model gets the dict keys as texts (C70_single_batch).
* **C71 interactive batches and inferences cover every example once and in order** (proved). `Interactive.C71_batches`, `Interactive.C71_infer`, `Interactive.C71_too_few`, `Interactive.C71_batch_size`. The inference function and the data pipeline are parameters.
* **C72 restoring a checkpoint of another model takes what both have from the checkpoint and the rest from the fallback state** (proved). `Fallback.C72_fallback`, `Fallback.C72_succeeds`, `Fallback.C72_other_model`, `Fallback.C72_no_target`, `Fallback.C72_fallback_not_cast`, `Fallback.C72_empty_dropped`. Keys without slash and other than 'driver'. Findings: with restore_dtype and no common parameter the restore fails although the fallback has everything (C72_no_target); fallback values are not cast to restore_dtype (C72_fallback_not_cast); empty dicts are dropped (C72_empty_dropped).
* **C73 sparse upcycling gives every expert the dense weights** (proved). `Upcycle.C73_experts`, `Upcycle.C73_others`, `Upcycle.C73_multi_host`, `Upcycle.C73_unchecked`. Findings: the local chunk of the host is cut out of the global array, so that with a non-expert dimension distributed over hosts the result has a wrong shape (C73_multi_host); num_experts is not checked, arrays in the msgpack file and unpartitioned expert parameters are not broadcast, full-shape m and v of experts cannot be restored (C73_unchecked).
* **C74 the logical axes of an optax state follow the parameters** (proved). `OptaxAxes.C74_axes`, `OptaxAxes.C74_unregistered`, `OptaxAxes.C74_zero_nans`, `OptaxAxes.C74_masked_accumulation`, `OptaxAxes.C74_sm3`. The fields of optax's state classes are taken from optax. Findings: the rules for zero_nans and SM3 cannot be used, the derivation fails in restore_state (C74_zero_nans, C74_sm3); MultiSteps inside a masked transformation fails, since the rule gives axes to masked gradients (C74_masked_accumulation).
* **C75 logical axis rules give every array a valid partition, in the order of the rules** (proved). `AxisRules.C75_defined`, `AxisRules.C75_assign`, `AxisRules.C75_batch`, `AxisRules.C75_model`, `AxisRules.C75_embed`, `AxisRules.C75_dims`, `AxisRules.C75_data_axis`, `AxisRules.C75_state`, `AxisRules.C75_state_defined`, `AxisRules.C75_moe`, `AxisRules.C75_moe_2d`, `AxisRules.C75_moe_expert_mlp`. flax's logical_to_mesh_axes is modelled from its source. Findings: two-dimensional parameter partitioning of a mixture-of-experts model raises a TypeError instead of a warning (C75_moe_2d); with the default expert rules the model axis goes to 'embed' of an expert kernel and 'expert_mlp' stays unsplit (C75_moe_expert_mlp).
* **C76 axis name overrides apply to exactly the parameters they match** (proved). `AxesOverride.C76_override`, `AxesOverride.C76_rank`, `AxesOverride.C76_ranks_kept`, `AxesOverride.C76_no_axes`. Regular expressions are the sets of names they match. Parameter names do not end in '_axes'.
* **C77 the metrics reported for a period are the right ratios of totals over all its microbatches, steps and hosts** (proved). `BaseMetrics.C77_report`, `BaseMetrics.C77_z`, `BaseMetrics.C77_features`, `BaseMetrics.C77_unpacked`, `BaseMetrics.C77_average_per_sequence`. Numbers are an ordered field; clu's Accuracy and Average are taken from their documentation. Finding: with the loss normalising factor AVERAGE_PER_SEQUENCE the reported loss per non-padding target token is a loss per sequence (C77_average_per_sequence).
* **C78 the loss of a mixture-of-experts model is the cross entropy plus the averaged expert losses** (proved). `MoeLoss.C78_loss`, `MoeLoss.C78_missing`, `MoeLoss.C78_report`, `MoeLoss.C78_microbatches`. The cross entropy is given (C13); arrays sown under one name have one shape. Finding: with M microbatches the expert losses count M times, and the reported router fractions are M times too large (C78_microbatches).
* **C79 the devices of all hosts hold one global batch made of exactly the hosts' examples** (proved). `ShardedArray.C79_batch`, `ShardedArray.C79_moe`, `ShardedArray.C79_any_size`, `ShardedArray.C79_whole_batch`, `ShardedArray.C79_rejects`. jax's devices_indices_map, shard_shape and make_array_from_single_device_arrays are taken from their documentation; hashes of the indices are assumed not to collide. Finding: a host batch of the wrong number of blocks is accepted, its rows dropped or repeated (C79_any_size, C79_whole_batch).
* **C80 training summaries are written in order, each once, with the duration of its own period** (proved). `AsyncMetrics.C80_written`, `AsyncMetrics.C80_total`, `AsyncMetrics.C80_no_error`, `AsyncMetrics.C80_progress`, `AsyncMetrics.C80_flush`. A transition system with arbitrary interleaving. asynclib.Pool(max_workers=1) is taken from its documentation (tasks run one at a time in order of submission, join waits for all); waiting for a value never fails. What the summaries contain besides the duration is C77.
* **C81 the partitioning of the Adafactor state follows the parameters, also for experts** (proved). `AdafactorAxes.C81_filter`, `AdafactorAxes.C81_infer`, `AdafactorAxes.C81_derive`, `AdafactorAxes.C81_experts`, `AdafactorAxes.C81_filter_use`, `AdafactorAxes.C81_beta1_zero`, `AdafactorAxes.C81_placeholder`, `AdafactorAxes.C81_partitions`, `AdafactorAxes.C81_override`. Parameter names with both expert and a later /kernel/v_ are excluded (OddName). Findings: with beta1 = 0.0 the momentum exists but is replicated (C81_beta1_zero); the one-element placeholders of unfactored expert kernels get the axis expert (C81_placeholder).
* **C82 the hosts evaluate exactly the same examples as a single host would, each once** (proved). `EvalData.C82_defined`, `EvalData.C82_hosts`, `EvalData.C82_cover`, `EvalData.C82_once`, `EvalData.C82_train`, `EvalData.C82_deterministic`, `EvalData.C82_steps`, `EvalData.C82_airio`, `EvalData.C82_airio_steps`. seqio.get_dataset is a parameter; tf.data's shard, batch, repeat and take are taken from their documentation. For AirIO tasks the evaluation has batches of one example, the same on all hosts, and is not limited to eval_steps (C82_airio, C82_airio_steps). Finding: deterministic=True raises a NameError (C82_deterministic).
* **C83 a task is accepted only with the vocabularies of the model** (proved). `Vocabs.C83_vocabulary`, `Vocabs.C83_verify`, `Vocabs.C83_others_unchecked`. Comparing vocabularies is comparing values. Finding: further features of a task with inputs and targets are not compared (C83_others_unchecked).
* **C84 line i of the inference output is about example i** (proved). `InferLines.C84_lines`, `InferLines.C84_file`, `InferLines.C84_end_to_end`, `InferLines.C84_unnoticed`. JSON encoding, conversion of values and the vocabulary are parameters. Findings: surplus predictions are dropped silently, an unknown mode is noticed only if there is an example (C84_unnoticed); with all decodes the padding of prediction_tokens is kept.
* **C85 evaluation during training covers every batch on all hosts or fails** (proved). `TrainerEval.C85_lockstep`, `TrainerEval.C85_host_zero`, `TrainerEval.C85_eval`, `TrainerEval.C85_compile`, `TrainerEval.C85_compiled_same`. multihost_assert_equal is taken from the jax documentation (comparison with host 0); a collective operation that some host never reaches does not complete. Finding: if host 0 has the fewest batches it still writes a summary of those, while the other hosts fail (C85_host_zero).
* **C86 the metrics about weights are what their names say** (proved). `WeightMetrics.C86_metrics`, `WeightMetrics.C86_consistent`, `WeightMetrics.C86_steps`, `WeightMetrics.C86_empty`. Exact reals; infinities and NaN are one value. Findings: weight_update_divided_by_weight_rms is infinite or NaN as soon as one old weight is zero, as for zero-initialised biases (C86_metrics); a parameter without elements makes the step fail (C86_empty).
* **C87 loading a checkpoint without a model gives the saved state** (proved). `LoadT5x.C87_load`, `LoadT5x.C87_lazy`, `LoadT5x.C87_empty`, `LoadT5x.C87_versions`, `LoadT5x.C87_transform`, `LoadT5x.C87_casts_everything`. Same abstractions as C64. Findings: restore_dtype also casts the optimizer state and the step, other than documented and other than Checkpointer.restore (C87_casts_everything); an empty dict in the state makes loading fail (OptaxWrapper drops those of the optimizer state when saving) (C87_empty).
* **C88 saving and restoring with Orbax gives back the state** (proved). `Orbax.C88_save_as_is`, `Orbax.C88_restore`, `Orbax.C88_succeeds`, `Orbax.C88_round_trip`, `Orbax.C88_save_dtype_lost`, `Orbax.C88_step_cast`, `Orbax.C88_empty`. Orbax itself is trusted (every leaf is stored and restored, cast as its arguments say). No state transformations, no data set; the legacy format is C64. Findings: save_dtype has no effect because names are joined with '/' but split at '.' (C88_save_dtype_lost); an unpartitioned step is cast to the restore dtype (C88_step_cast); an empty dict in the train state makes restoring fail (C88_empty).
* **C89 the beam dimension keeps the caches and results of every beam and example together** (proved). `BeamDims.C89_flatten`, `BeamDims.C89_unflatten`, `BeamDims.C89_expand`, `BeamDims.C89_one_hot`, `BeamDims.C89_fancy`, `BeamDims.C89_cache_map`, `BeamDims.C89_init`, `BeamDims.C89_flat_cache`, `BeamDims.C89_step`, `BeamDims.C89_samples`, `BeamDims.C89_nan_spreads`. Floats are exact numbers, infinities and NaN. Finding: because beams are gathered by a one-hot contraction, a NaN or infinity in the cache of one beam gets into all beams of the row (C89_nan_spreads).
* **C90 the losses of CALM weigh layers and positions as intended** (proved). `CalmLoss.C90_weights`, `CalmLoss.C90_average`, `CalmLoss.C90_same`, `CalmLoss.C90_negative`, `CalmLoss.C90_balance`, `CalmLoss.C90_meta`, `CalmLoss.C90_meta_nan`, `CalmLoss.C90_first_agreeing`, `CalmLoss.C90_geom`, `CalmLoss.C90_geom_loss`, `CalmLoss.C90_z_unreported`. Real numbers; predictions of the layers given; positions as a list. Findings: negative aggregation weights below -1 are accepted and divide by zero for two layers (C90_negative); the classifier's loss is NaN if no weight is exactly one, as with AVERAGE_PER_SEQUENCE (C90_meta_nan); the z-loss of the geometric-like loss is reported as zero (C90_z_unreported).
* **C91 an Adafactor step has the promised direction and size, and factoring loses only what it says** (proved). `AdafactorNum.C91_decay`, `AdafactorNum.C91_accumulators`, `AdafactorNum.C91_reachable`, `AdafactorNum.C91_step`, `AdafactorNum.C91_bounded`, `AdafactorNum.C91_momentum`, `AdafactorNum.C91_sign`, `AdafactorNum.C91_reset`, `AdafactorNum.C91_matrix`, `AdafactorNum.C91_zero_decay`. Arithmetic of real numbers on the array model of C48. The statement about row and column means and rank one is for matrices (the default factors no others). Finding: with weight_decay_rate_lr_exponent, a weight_decay_rate of zero counts as one (C91_zero_decay).
* **C92 sampling draws from the top k or the nucleus, with the example's temperature and the reported log-probability** (proved). `SampleToken.C92_greedy`, `SampleToken.C92_score`, `SampleToken.C92_topp_search`, `SampleToken.C92_support`, `SampleToken.C92_topk_one`, `SampleToken.C92_tie`, `SampleToken.C92_traced_topp_zero`, `SampleToken.C92_below_neg_inf`, `SampleToken.C92_both`, `SampleToken.C92_identical`, `SampleToken.C92_generated`. Real numbers; categorical sampling is argmax of logits plus noise, the distribution of the noise is not modelled. Findings: with an array of temperatures every row is sampled with the same key, so the num_decodes decodes of an example are identical (C92_identical); a traced topp of 0 makes all tokens equally likely instead of having no effect (C92_traced_topp_zero); scaled logits below -1e7 make the sampler choose what top-k excluded (C92_below_neg_inf); with ties topk=1 is random and has log-probability at most -log 2 (C92_tie).
* **C93 the logits of an example do not depend on its row: padding, packing and position** (proved). `Transformer.C93_same_logits`, `Transformer.C93_packed`, `Transformer.C93_padding`, `Transformer.C93_causal`, `Transformer.C93_mask_exact`, `Transformer.C93_fully_masked`. Real arithmetic with an exponential that is 0 from some -theta on (float32: about -104); no dropout; the summands are the same, but float sums of rows of different lengths may round differently. Finding: a fully masked query attends to everything (C93_fully_masked), see also C54_leak_without_encoder_tokens.
* **C94 the whole T5 network decodes with the logits it is trained and scored with** (proved). `T5Decode.C94_decode`, `T5Decode.C94_packed`, `T5Decode.C94_score`, `T5Decode.C94_full_cache`. As C93; C60 and C62 show the same for arbitrary layers with weight 0 for masked keys, here the whole network and the bias of -1e10 are concrete.
* **C95 the decoder-only network: packing, prefixes and prefilled prompts give the same logits** (proved). `DecoderOnly.C95_same_logits`, `DecoderOnly.C95_packed`, `DecoderOnly.C95_causal`, `DecoderOnly.C95_prefill`, `DecoderOnly.C95_packed_predict`, `DecoderOnly.C95_score`. As C93; C61 and C62 show the same for arbitrary layers with weight 0 for masked keys, here the whole network and the bias of -1e10 are concrete. Within a bidirectional prefix all later keys have the relative position bias of distance 0, since the biases are made with bidirectional=False.
* **C96 packing changes neither the training loss nor its gradient** (proved). `PackedLoss.C96_loss`, `PackedLoss.C96_gradient`, `PackedLoss.C96_lm_loss`, `PackedLoss.C96_total_tokens`, `PackedLoss.C96_without_weights`, `PackedLoss.C96_examples`, `PackedLoss.C96_position`. Real arithmetic, no dropout. Packing itself is seqio's; its result is described in the statement (packRow).
* **C97 training continues with the batches it would have seen without the interruption** (proved). `DsCkpt.C97_resume`, `DsCkpt.C97_other_shards`, `DsCkpt.C97_orbax`, `DsCkpt.C97_orbax_diverges`, `DsCkpt.C97_orbax_other`. Saving and loading one iterator is clu's and TensorFlow's (trusted): load gives the state that save had. The layouts are those of C42. The Orbax clauses are the exact behaviour, which contradicts what a user expects when a replica set has several processes.
* **C98 the Orbax manager restores the checkpoint it is asked for, in the format it has** (proved). `OrbaxMgr.C98_path`, `OrbaxMgr.C98_step`, `OrbaxMgr.C98_step_legacy`, `OrbaxMgr.C98_manager`, `OrbaxMgr.C98_config_findings`. Default directory prefix; the file system and Orbax itself are parameters. C98_step_legacy and C98_config_findings prove the deviations.
* **C99 beam search finds every sequence that is not outnumbered** (proved). `Beam.C99_found`, `Beam.C99_one_beam`, `Beam.C99_exhaustive`, `Beam.C99_not_monotone`. Exact arithmetic; likelihoods and scores of the sequence above NEG_INF; default min_log_prob and no max_decode_step. C99_exhaustive is for one initial index in all rows. C99_not_monotone gives the counterexamples for more beams and for greedy decoding.
* **C100 Scalable T5 is one network, scanned or not** (proved). `ScalableT5.C100_scan`, `ScalableT5.C100_scan_decode`, `ScalableT5.C100_stack`, `ScalableT5.C100_t5`, `ScalableT5.C100_t5_decode`, `ScalableT5.C100_same_logits`, `ScalableT5.C100_packed`, `ScalableT5.C100_decode`, `ScalableT5.C100_score`. Real arithmetic with an exponential that underflows, parameters whose attention logits stay below the mask bias. nn.scan is trusted to run the layers in order on slices of the stacked arrays (param_scan_axis=1); remat is left out.
* **C101 The T5 network for GPUs is the T5 network with scaled queries** (proved). `GpuT5.C101_same`, `GpuT5.C101_decode`, `GpuT5.C101_convert`, `GpuT5.C101_init`, `GpuT5.C101_outside`. Real arithmetic. Gathering out of bounds clamps and negative indices count from the end, as in jax.
* **C102 a training job survives being killed and restarted** (proved). `TrainJob.C102_uninterrupted`, `TrainJob.C102_restart`, `TrainJob.C102_monotone`, `TrainJob.C102_kept`, `TrainJob.C102_finishes`, `TrainJob.C102_preempted`, `TrainJob.C102_cluster`. Puts together the models of C20-C22, C34, C42, C58 and C97. The file formats are a pair of a writer and a reader that returns what was written (C23, C24, C29 and C64 are about those); a step increments train_state.step. C102_preempted is the exception. Local file systems, where rename is atomic.
* **C103 sampling draws from the model's distribution** (proved). `SampleLaw.C103_token`, `SampleLaw.C103_joint`, `SampleLaw.C103_sequence`, `SampleLaw.C103_found`, `SampleLaw.C103_log_prob`, `SampleLaw.C103_t5`. The random numbers of jax.random.categorical are assumed to be independent standard Gumbel variables for different iterations, rows and tokens; that the argmax then has the softmax distribution is proved. Real arithmetic; one temperature for the batch (with an array of temperatures the decodes of an example are identical, C92_identical).
* **C104 the number of microbatches and the loss normalising factor** (proved). `MicroLoss.C104_step`, `MicroLoss.C104_constant`, `MicroLoss.C104_scaled`, `MicroLoss.C104_num_total`, `MicroLoss.C104_equal_rows`, `MicroLoss.C104_row_weights`, `MicroLoss.C104_str`, `MicroLoss.C104_differs`. Real arithmetic, no dropout, no mutables; jax.grad is the derivative. A factor 0 (a microbatch without target tokens) gives 0 instead of the NaN of floating point. C104_differs shows that the gradient changes with each of the special factors.
* **C105 the T5 network on arrays with a batch is the network on each row** (proved). `ArrT5.C105_dense`, `ArrT5.C105_dense_shape`, `ArrT5.C105_params`, `ArrT5.C105_apply`, `ArrT5.C105_missing_segments`, `ArrT5.C105_batch`, `ArrT5.C105_decode`, `ArrT5.C105_cached`. The array operations (broadcasting, reshape, dot_general, einsum, ...) are modelled after their documentation; real arithmetic, no dropout. C105_params shows that parameter arrays of the declared shapes are always those of a network as in C93. With it the theorems about one row (C93, C94, C96) hold for batches.
* **C106 evaluation with the interactive model gives metric functions matching targets, predictions and scores** (proved). `InteractiveEval.C106_evaluate`, `InteractiveEval.C106_scores_only`, `InteractiveEval.C106_bytes`, `InteractiveEval.C106_postprocessor`, `InteractiveEval.C106_signature`, `InteractiveEval.C106_lengths`, `InteractiveEval.C106_hosts`, `InteractiveEval.C106_dataset`, `InteractiveEval.C106_invalid`, `InteractiveEval.C106_train_batch`. The model's functions on batches and the preprocessors are parameters; texts are valid UTF-8; eager execution. C106_scores_only, C106_bytes, C106_postprocessor and C106_hosts are findings.
* **C107 scores of an exported model are the log-likelihoods of the texts** (proved). `ExportScore.C107_row`, `ExportScore.C107_served`, `ExportScore.C107_independent`. The tokenizer is not modelled; the arrays made by the preprocessor (C67) are run through the network on arrays (C105), and C93 removes padding. Real arithmetic; the exponential underflows to 0 at the mask bias as in C93.
* **C108 the prediction for an example does not depend on its batch** (proved). `PredictIndep.C108_sampling`, `PredictIndep.C108_t5`, `PredictIndep.C108_served`, `PredictIndep.C108_short_predictions`. C108_sampling is about any model with caches. The network acts row by row (C105 is the link to arrays). C108_short_predictions is a finding. Real arithmetic as in C93.
* **C109 offline inference with the T5 network gives each example its own score or prediction** (proved). `OfflineInfer.C109_scores`, `OfflineInfer.C109_predictions`, `OfflineInfer.C109_runs`. The feature converter is part of seqio and modelled after its documentation; composes C36, C107 and C108. Greedy choice is any choice of tokens that is the same function for all rows. Real arithmetic as in C93.
* **C110 the beams found for an example do not depend on its batch** (proved). `BeamIndep.C110_beam`, `BeamIndep.C110_t5`, `BeamIndep.C110_infer`, `BeamIndep.C110_ties`, `BeamIndep.C110_min_log_prob`, `BeamIndep.C110_longer_prompt`. C110_ties, C110_min_log_prob and C110_longer_prompt are findings with concrete runs. Scores are real numbers, so ties by rounding are not covered. Composes C08, C36, C105 and C108.
* **C111 a decoder-only model continues every prompt from the distribution it was trained on** (proved). `LmPredict.C111_decodes`, `LmPredict.C111_best`, `LmPredict.C111_greedy`, `LmPredict.C111_sampled`, `LmPredict.C111_score`. Composes C10, C92, C95 and C103. One temperature for the batch. Random numbers as in C103, real arithmetic as in C93. With max_decode_steps=0 one token is still generated (C06_zero_steps), so the limit is at least 1.
* **C112 the decoder-only network on a batch is the network of every row, at every row's own index** (proved). `ArrLm.C112_params`, `ArrLm.C112_apply`, `ArrLm.C112_batch`, `ArrLm.C112_predict`, `ArrLm.C112_cached`. Array operations as in C105, and an einsum in which a dimension of size 1 is broadcast, as XLA does for the label 'b' of the biases. Composes C95.
* **C113 training with dropout: unbiased, causal, and the same in expectation for packed and padded batches** (proved). `Dropout.C113_unbiased`, `Dropout.C113_unbiased_attention`, `Dropout.C113_off`, `Dropout.C113_same_logits`, `Dropout.C113_causal`, `Dropout.C113_packed`, `Dropout.C113_expected_loss`, `Dropout.C113_gradient`, `Dropout.C113_dropped_output`, `Dropout.C113_dropped_input`, `Dropout.C113_dropped_self`, `Dropout.C113_dropped_cross`, `Dropout.C113_dropped_mlp`, `Dropout.C113_dropped_encoder`, `Dropout.C113_dropped_layers`, `Dropout.C113_output_sum`, `Dropout.C113_enabled`, `Dropout.C113_lm_off`, `Dropout.C113_lm_same_logits`, `Dropout.C113_lm_causal`, `Dropout.C113_lm_expected_loss`, `Dropout.C113_lm_dropped`, `Dropout.C113_lm_dropped_layers`, `Dropout.C113_lm_enabled`. The bits are independent with probability 1 - rate, one for every entry of the mask arrays that the code makes. How flax derives the keys of the modules is not modelled. Real arithmetic as in C93. The expectations agree, not the distributions: examples packed in a row share the masks of the features.
* **C114 initialising the networks: the parameters, their shapes and axes, and what the rest of the library does with them** (proved). `InitT5.C114_t5`, `InitT5.C114_lm`, `InitT5.C114_raises`, `InitT5.C114_axes`, `InitT5.C114_partition`, `InitT5.C114_even`, `InitT5.C114_apply`, `InitT5.C114_adafactor`, `InitT5.C114_import_t5`, `InitT5.C114_import_lm`. init runs on shapes; initial values, dtypes and flax's own bookkeeping are not modelled. An additional rule for 'embed' can change the placement of kernels with the rules for two model dimensions and one parameter dimension, therefore the hypothesis. Composes C49, C48, C75 and C105.
* **C115 Adafactor trains stacked (scanned) layers as separate layers** (proved). `AdafactorStack.C115_layers`, `AdafactorStack.C115_matrices`, `AdafactorStack.C115_small_differs`, `AdafactorStack.C115_unfactored_differs`. C115_layers is for any arithmetic, C115_matrices for real arithmetic, where the names v_row and v_col of the two accumulators may be exchanged. C115_small_differs and C115_unfactored_differs are findings with concrete runs and show that the exceptions are necessary.
* **C116 scanned and separate layers: the same network parameters, stacked** (proved). `InitScalable.C116_separate`, `InitScalable.C116_stacked`, `InitScalable.C116_axis`, `InitScalable.C116_segments`, `InitScalable.C116_names`, `InitScalable.C116_layers`, `InitScalable.C116_others`, `InitScalable.C116_size`, `InitScalable.C116_partition`, `InitScalable.C116_factored`. init runs on shapes as in C114. nn.scan and scan_with_axes are modelled from the flax source for a param_scan_axis that is not negative.
* **C117 training with scanned layers is training with separate layers** (proved). `ScanTrain.C117_train`, `ScanTrain.C117_gradients`, `ScanTrain.C117_logits`, `ScanTrain.C117_networks`, `ScanTrain.C117_trees`. Composes C115, C116 and C59. Real arithmetic; gradients are partial derivatives. The same hyper-parameters for all parameters. C117_trees shows that parameters and gradients of the assumed kind exist for every loss.
* **C118 training on packed examples is training on the same examples one per row** (proved). `PackedTrain.C118_train`, `PackedTrain.C118_lm_train`, `PackedTrain.C118_microbatches`, `PackedTrain.C118_features`. Composes C96, C104 and C57. Hypotheses as in C96, for the parameters near each visited state; the microbatched version also needs differentiable logits there. Metrics are loss, z-loss, learning rate and any weight metrics. The iterators' rests are not compared.
* **C119 the trainer for mixtures of experts is the regular trainer with scaled expert gradients** (proved). `MoeTrain.C119_step`, `MoeTrain.C119_train`, `MoeTrain.C119_default`, `MoeTrain.C119_prefix`, `MoeTrain.C119_dots`, `MoeTrain.C119_same`, `MoeTrain.C119_no_parameters`, `MoeTrain.C119_adafactor`. Composes C50, C57 and C91. Exact arithmetic. Regular expressions are modelled for literal characters, '.' and '.*'. C119_no_parameters is a finding. C119_adafactor is for one parameter with real arithmetic and without clipping of the global norm.
* **C120 the reported metrics of packed batches are those of the same examples padded** (proved). `PackedMetrics.C120_same`, `PackedMetrics.C120_accuracy`, `PackedMetrics.C120_layout`, `PackedMetrics.C120_lm`. Composes C96 and C77. Real arithmetic, no dropout. Every piece of the period (a batch or microbatch) has at least one example; rows may be empty. `timing/seqs` counts rows (C120_layout).
* **C121 what an export puts around the model: dual encoder features, task pipelines, warmup requests, directories and shapes** (proved). `ExportFront.C121_dual`, `ExportFront.C121_dual_texts`, `ExportFront.C121_process`, `ExportFront.C121_process_fails`, `ExportFront.C121_process_filter`, `ExportFront.C121_process_expand`, `ExportFront.C121_describe`, `ExportFront.C121_warmup`, `ExportFront.C121_dirs`, `ExportFront.C121_dirs_fails`, `ExportFront.C121_dirs_distinct`, `ExportFront.C121_fake`, `ExportFront.C121_poly`. Tokenizers, task preprocessors and the feature converter are parameters. C121_process_filter and C121_process_expand are findings, as is the refusal of dimensions that are 0 in C121_fake. Which characters are digits is a parameter.
* **C122 converting a T5 checkpoint first, or restoring it directly, gives the same train state** (proved). `ConvertTf.C122_direct`, `ConvertTf.C122_convert`, `ConvertTf.C122_same`, `ConvertTf.C122_missing`, `ConvertTf.C122_t5`, `ConvertTf.C122_lm`. Composes C49, C64 and C114. The imported arrays must have the dtypes of the train state for a conversion (tensorstore writes only that), keys have no slash and no dot, every leaf of the train state is an array. Reading TensorFlow files is not modelled.
* **C123 where the train state of a job comes from** (proved). `StartState.C123_resume`, `StartState.C123_initial`, `StartState.C123_scratch`, `StartState.C123_initializer`, `StartState.C123_initializer_conv`, `StartState.C123_orbax_resume`, `StartState.C123_never_resumes`, `StartState.C123_orbax_initial`, `StartState.C123_orbax_dataset`, `StartState.C123_eval`, `StartState.C123_export`, `StartState.C123_interactive`, `StartState.C123_map_resumable`, `StartState.C123_map_first`, `StartState.C123_finetune`, `StartState.C123_twice`. Reading one checkpoint is a parameter of all theorems but C123_finetune, which composes with C64. The exceptions of C123_initializer_conv, C123_never_resumes, C123_orbax_dataset, C123_interactive (second part) and C123_twice are findings and limits. The directory of the job holds T5X checkpoints.
* **C124 meshes of GPUs, CPUs and several TPU slices, and the hosts' parts of them** (proved). `HybridMesh.C124_hybrid`, `HybridMesh.C124_slice`, `HybridMesh.C124_gpu`, `HybridMesh.C124_gpu_hosts`, `HybridMesh.C124_tpu_hosts`, `HybridMesh.C124_cpu`, `HybridMesh.C124_default`. jax's create_hybrid_device_mesh is described as documented, with the arrangement of the devices of one group as a parameter (C124_hybrid and C124_slice say what follows from it); it is trusted. C124_gpu_hosts and C124_tpu_hosts give the hypotheses of C41 and C42.
* **C125 a training job with the files it writes: kills, restarts and what is read back** (proved). `JobFiles.C125_tmp`, `JobFiles.C125_reads_back`, `JobFiles.C125_attempt`, `JobFiles.C125_job`, `JobFiles.C125_restart`, `JobFiles.C125_latest`, `JobFiles.C125_finishes`, `JobFiles.C125_gpu`, `JobFiles.C125_rounding`. Composes C102 with C64, C123 and C124: the pair of writer and reader of C102 is that of C64. A tensorstore array is one file. C125_rounding is the refutation without the hypothesis on the dtype.
* **C126 a killed and restarted job computes what the Trainer computes on its data set** (proved). `TrainedJob.C126_stable`, `TrainedJob.C126_job`, `TrainedJob.C126_latest`, `TrainedJob.C126_packed`. Composes C125 with C52, C30, C57 and C118. How parameters, optimizer state and mutables are laid out in arrays is a parameter (a codec that loses nothing); how the shards' batches are put together to a global batch is a parameter. C126_packed is for models without mutables and gradients over the reals.
* **C127 What inference computes with the checkpoints of a training job** (proved). `TrainInfer.C127_part`, `TrainInfer.C127_restore`, `TrainInfer.C127_scores`, `TrainInfer.C127_packed`. Composes C126 with C64, C52, C36 and C109. How parameters are laid out in arrays and how the network reads them from the nested dict are parameters; empty dicts in the template of the inference job are excluded.
* **C128 Jobs that train with Adafactor: steps that cannot fail, kept entries and shapes, kills and restarts** (proved). `AdafactorJob.C128_step`, `AdafactorJob.C128_codec`, `AdafactorJob.C128_keeps`, `AdafactorJob.C128_run`, `AdafactorJob.C128_job`, `AdafactorJob.C128_inference`, `AdafactorJob.C128_empty`. Composes C48, C59 and C126; gives the hypothesis of C126 and C127 on the optimizer. Arrays are real numbers with a dtype, casts change the dtype only. C128_empty shows that the hypothesis on empty dicts is needed.
* **C129 What the file with the variables of the model lists** (proved). `ModelInfo.C129_info`, `ModelInfo.C129_no_parameters`, `ModelInfo.C129_other_hosts`. The trees of logical axes and of mesh axes are given as functions of the path. The lines are given by what is formatted into them.
* **C130 Binary search and top-k and top-p masks on arrays of any rank** (proved). `BatchSearch.C130_bsearch`, `BatchSearch.C130_topk_rows`, `BatchSearch.C130_topp_rows`, `BatchSearch.C130_topk`, `BatchSearch.C130_topp`. Extends C01-C05 from rows to arrays. The operations of jax.numpy (swapaxes, expand_dims, broadcasting, where, reductions) are models of their documented semantics; softmax of a row and the floating point sum are parameters; rank 0 is not modelled.
* **C131 The logged metrics by which SaveBestCheckpointer keeps checkpoints** (proved). `StepMetrics.C131_values`, `StepMetrics.C131_not_found`, `StepMetrics.C131_hidden`, `StepMetrics.C131_save_best`, `StepMetrics.C131_orbax`. Extends C22 by the source of the metric values. Directories and events are given as TensorBoard's loaders yield them; values are a linear order (no NaN).
* **C132 Inference evaluation during training and the inference job on the checkpoint** (proved). `InferEval.C132_alone`, `InferEval.C132_hosts`, `InferEval.C132_first_axes`, `InferEval.C132_offline`. Extends C36 and C127. seqio.Evaluator.evaluate is a parameter; C132_offline is about score_batch, row by row (C109 proves that scores do not depend on the other rows); decoding with sampling is not the same in the two programs, as infer.py uses other keys.
* **C133 Jobs that train with an optax optimizer** (proved). `OptaxJob.C133_step`, `OptaxJob.C133_learning_rate`, `OptaxJob.C133_keeps`, `OptaxJob.C133_run`, `OptaxJob.C133_job`, `OptaxJob.C133_inference`. Composes C46, C126 and C127. The optax transformation is a parameter with the contract stated in Spec.Contract; optax.apply_updates is modelled after its documentation.
* **C134 Training with MultiOptimizer over many steps** (proved). `MultiRun.C134_frozen`, `MultiRun.C134_alone`, `MultiRun.C134_independent`, `MultiRun.C134_leafwise`, `MultiRun.C134_trainer`, `MultiAxes.C134_axes`, `MultiAxes.C134_set_axes`. Extends C47 from one step to runs of the trainer. Sub-optimizers are arbitrary functions of the leaves of their arguments that count their steps; traversal filters look at the path only.
* **C135 Tasks registered on the fly** (proved). `AdhocTask.C135_examples`, `AdhocTask.C135_succeeds`, `AdhocTask.C135_names`, `AdhocTask.C135_again`, `AdhocTask.C135_colon`, `AdhocTask.C135_interactive`. Examples are those before tokenisation. SeqIO's registries, rekey and the TFExample source are modelled after SeqIO's documentation; the hash is a parameter.
* **C136 Only evaluating with the training script** (proved). `TrainLoop.C136_only_evaluates`, `TrainLoop.C136_too_late`, `TrainLoop.C136_relative`, `TrainLoop.C136_script`. Uses the model of the training loop of C34. Of the gin configuration only the arguments of train are modelled.
* **C137 The batches that the training step is compiled for** (proved). `Precompile.C137_batches`. Names and shapes only. Uses the data layouts of C42.
* **C138 limits on the number of decoding steps** (proved). `DecodeLimit.C138_scalar`, `DecodeLimit.C138_absent`, `DecodeLimit.C138_rows`, `DecodeLimit.C138_decodes`, `DecodeLimit.C138_sampling`. Limits handed to the loop; that the loop respects them is proved with the sampling loop, which C138_sampling links to for a single number of steps. Shapes that do not broadcast are errors of jnp (trusted).

## Axioms

Output of `#print axioms` for every theorem in the manifest, grouped. No other axiom occurs.

* **Classical.choice, Quot.sound, propext** (640 theorems): `BinarySearch.C01_int32_bsearch`, `BinarySearch.C02_bit_pattern_order`, `BinarySearch.C03_float32_bsearch`, `BinarySearch.C04_topk_mask`, `BinarySearch.C04_topk_count`, `BinarySearch.C04_neg_inf_replaced`, `BinarySearch.C05_topp_mask`, `Sampling.C06_termination`, `Sampling.C06_rows`, `Sampling.C06_num_decodes`, `TopK.C07_top_k_two_stage`, `TopK.C07_any_lanes`, `Beam.C08_bound`, `Beam.C08_early_stop`, `Beam.C08_batch`, `Beam.C08_needs_length`, `Beam.brevity_good`, `Align.C09_right_align`, `Align.C09_left_align`, `Align.C09_round_trip`, `Align.C10_remove_prefix`, `ScalableT5.C100_scan`, `ScalableT5.C100_scan_decode`, `ScalableT5.C100_stack`, `ScalableT5.C100_t5`, `ScalableT5.C100_t5_decode`, `ScalableT5.C100_same_logits`, `ScalableT5.C100_packed`, `ScalableT5.C100_decode`, `ScalableT5.C100_score`, `GpuT5.C101_same`, `GpuT5.C101_decode`, `GpuT5.C101_convert`, `GpuT5.C101_init`, `GpuT5.C101_outside`, `TrainJob.C102_uninterrupted`, `TrainJob.C102_restart`, `TrainJob.C102_monotone`, `TrainJob.C102_kept`, `TrainJob.C102_finishes`, `TrainJob.C102_preempted`, `TrainJob.C102_cluster`, `SampleLaw.C103_token`, `SampleLaw.C103_joint`, `SampleLaw.C103_sequence`, `SampleLaw.C103_found`, `SampleLaw.C103_log_prob`, `SampleLaw.C103_t5`, `MicroLoss.C104_step`, `MicroLoss.C104_constant`, `MicroLoss.C104_scaled`, `MicroLoss.C104_num_total`, `MicroLoss.C104_equal_rows`, `MicroLoss.C104_row_weights`, `MicroLoss.C104_str`, `MicroLoss.C104_differs`, `ArrT5.C105_dense`, `ArrT5.C105_dense_shape`, `ArrT5.C105_params`, `ArrT5.C105_apply`, `ArrT5.C105_missing_segments`, `ArrT5.C105_batch`, `ArrT5.C105_decode`, `ArrT5.C105_cached`, `InteractiveEval.C106_evaluate`, `InteractiveEval.C106_scores_only`, `ExportScore.C107_row`, `ExportScore.C107_served`, `ExportScore.C107_independent`, `PredictIndep.C108_sampling`, `PredictIndep.C108_t5`, `PredictIndep.C108_served`, `PredictIndep.C108_short_predictions`, `OfflineInfer.C109_scores`, `OfflineInfer.C109_predictions`, `OfflineInfer.C109_runs`, `Masks.C11_decoder_mask`, `Masks.C11_causal_stack`, `BeamIndep.C110_beam`, `BeamIndep.C110_t5`, `BeamIndep.C110_infer`, `BeamIndep.C110_ties`, `BeamIndep.C110_min_log_prob`, `BeamIndep.C110_longer_prompt`, `LmPredict.C111_decodes`, `LmPredict.C111_best`, `LmPredict.C111_greedy`, `LmPredict.C111_sampled`, `LmPredict.C111_score`, `ArrLm.C112_params`, `ArrLm.C112_apply`, `ArrLm.C112_batch`, `ArrLm.C112_predict`, `ArrLm.C112_cached`, `Dropout.C113_unbiased`, `Dropout.C113_unbiased_attention`, `Dropout.C113_off`, `Dropout.C113_same_logits`, `Dropout.C113_causal`, `Dropout.C113_packed`, `Dropout.C113_expected_loss`, `Dropout.C113_gradient`, `Dropout.C113_dropped_output`, `Dropout.C113_dropped_input`, `Dropout.C113_dropped_self`, `Dropout.C113_dropped_cross`, `Dropout.C113_dropped_mlp`, `Dropout.C113_dropped_encoder`, `Dropout.C113_dropped_layers`, `Dropout.C113_output_sum`, `Dropout.C113_enabled`, `Dropout.C113_lm_off`, `Dropout.C113_lm_same_logits`, `Dropout.C113_lm_causal`, `Dropout.C113_lm_expected_loss`, `Dropout.C113_lm_dropped`, `Dropout.C113_lm_dropped_layers`, `Dropout.C113_lm_enabled`, `InitT5.C114_t5`, `InitT5.C114_lm`, `InitT5.C114_raises`, `InitT5.C114_axes`, `InitT5.C114_partition`, `InitT5.C114_even`, `InitT5.C114_apply`, `InitT5.C114_adafactor`, `InitT5.C114_import_t5`, `InitT5.C114_import_lm`, `AdafactorStack.C115_layers`, `AdafactorStack.C115_matrices`, `AdafactorStack.C115_small_differs`, `AdafactorStack.C115_unfactored_differs`, `InitScalable.C116_separate`, `InitScalable.C116_stacked`, `InitScalable.C116_axis`, `InitScalable.C116_segments`, `InitScalable.C116_names`, `InitScalable.C116_layers`, `InitScalable.C116_others`, `InitScalable.C116_size`, `InitScalable.C116_partition`, `InitScalable.C116_factored`, `ScanTrain.C117_train`, `ScanTrain.C117_gradients`, `ScanTrain.C117_logits`, `ScanTrain.C117_networks`, `ScanTrain.C117_trees`, `PackedTrain.C118_train`, `PackedTrain.C118_lm_train`, `PackedTrain.C118_microbatches`, `PackedTrain.C118_features`, `MoeTrain.C119_step`, `MoeTrain.C119_train`, `MoeTrain.C119_default`, `MoeTrain.C119_same`, `MoeTrain.C119_no_parameters`, `MoeTrain.C119_adafactor`, `RelPos.C12_unidirectional`, `RelPos.C12_bidirectional`, `RelPos.C12_bias`, `RelPos.exactLog_logLike`, `PackedMetrics.C120_same`, `PackedMetrics.C120_accuracy`, `PackedMetrics.C120_layout`, `PackedMetrics.C120_lm`, `ExportFront.C121_dual`, `ExportFront.C121_dual_texts`, `ExportFront.C121_process`, `ExportFront.C121_process_fails`, `ExportFront.C121_process_filter`, `ExportFront.C121_process_expand`, `ExportFront.C121_describe`, `ExportFront.C121_warmup`, `ExportFront.C121_dirs`, `ExportFront.C121_dirs_fails`, `ExportFront.C121_dirs_distinct`, `ExportFront.C121_fake`, `ExportFront.C121_poly`, `ConvertTf.C122_direct`, `ConvertTf.C122_convert`, `ConvertTf.C122_same`, `ConvertTf.C122_missing`, `ConvertTf.C122_t5`, `ConvertTf.C122_lm`, `StartState.C123_resume`, `StartState.C123_initial`, `StartState.C123_scratch`, `StartState.C123_initializer`, `StartState.C123_initializer_conv`, `StartState.C123_orbax_resume`, `StartState.C123_never_resumes`, `StartState.C123_orbax_initial`, `StartState.C123_orbax_dataset`, `StartState.C123_eval`, `StartState.C123_export`, `StartState.C123_interactive`, `StartState.C123_map_resumable`, `StartState.C123_finetune`, `HybridMesh.C124_hybrid`, `HybridMesh.C124_slice`, `HybridMesh.C124_gpu`, `HybridMesh.C124_gpu_hosts`, `HybridMesh.C124_tpu_hosts`, `HybridMesh.C124_default`, `JobFiles.C125_tmp`, `JobFiles.C125_reads_back`, `JobFiles.C125_attempt`, `JobFiles.C125_job`, `JobFiles.C125_restart`, `JobFiles.C125_latest`, `JobFiles.C125_finishes`, `JobFiles.C125_gpu`, `JobFiles.C125_rounding`, `TrainedJob.C126_stable`, `TrainedJob.C126_job`, `TrainedJob.C126_latest`, `TrainedJob.C126_packed`, `TrainInfer.C127_part`, `TrainInfer.C127_restore`, `TrainInfer.C127_scores`, `TrainInfer.C127_packed`, `AdafactorJob.C128_step`, `AdafactorJob.C128_codec`, `AdafactorJob.C128_keeps`, `AdafactorJob.C128_run`, `AdafactorJob.C128_job`, `AdafactorJob.C128_inference`, `AdafactorJob.C128_empty`, `ModelInfo.C129_info`, `ModelInfo.C129_no_parameters`, `Loss.C13_forward`, `Loss.C13_grad_logits`, `Loss.C13_gradient`, `Loss.C13_grad_targets`, `Loss.C13_soft_targets_sum`, `Loss.C13_one_token`, `BatchSearch.C130_bsearch`, `BatchSearch.C130_topk_rows`, `BatchSearch.C130_topp_rows`, `BatchSearch.C130_topk`, `BatchSearch.C130_topp`, `StepMetrics.C131_values`, `StepMetrics.C131_not_found`, `StepMetrics.C131_hidden`, `StepMetrics.C131_save_best`, `StepMetrics.C131_orbax`, `InferEval.C132_offline`, `OptaxJob.C133_learning_rate`, `OptaxJob.C133_keeps`, `OptaxJob.C133_run`, `OptaxJob.C133_job`, `OptaxJob.C133_inference`, `MultiRun.C134_frozen`, `MultiRun.C134_alone`, `MultiRun.C134_independent`, `MultiRun.C134_leafwise`, `MultiRun.C134_trainer`, `MultiAxes.C134_axes`, `MultiAxes.C134_set_axes`, `AdhocTask.C135_examples`, `AdhocTask.C135_succeeds`, `AdhocTask.C135_names`, `AdhocTask.C135_again`, `AdhocTask.C135_colon`, `AdhocTask.C135_interactive`, `Precompile.C137_batches`, `DecodeLimit.C138_scalar`, `DecodeLimit.C138_decodes`, `DecodeLimit.C138_sampling`, `Loss.C14_nonneg`, `Loss.C14_hard_labels`, `Loss.C14_tight`, `Loss.C14_weighted`, `LossWeights.C15_packed_weights`, `LossWeights.C15_sequence_total`, `LossWeights.C15_average_per_sequence`, `LossWeights.C15_names`, `LossWeights.C15_unpacked`, `LossWeights.C16_count`, `StateDict.C17_intersect`, `StateDict.C17_merge`, `StateDict.C17_merge_after_intersect`, `StateDict.C18_assignment_partial`, `StateDict.C18_shadowed`, `StateDict.C18_first_rule_ignored`, `StateDict.C18_require_all`, `StateDict.C18_resume_identity`, `StateDict.C18_nested`, `StateDict.C19_round_trip`, `StateDict.C19_names`, `Ckpt.C20_latest_complete`, `Ckpt.C20_save_visible`, `Ckpt.C20_all_complete_partial`, `Ckpt.C20_keep_all`, `Ckpt.C20_crash_while_pruning`, `Ckpt.C20_gs_not_atomic`, `Ckpt.C21_retention`, `Ckpt.C21_backward_save_lost`, `Ckpt.C22_save_best`, `Ckpt.C23_round_trip`, `Ckpt.C23_distinct`, `Ckpt.C23_all_steps`, `Ckpt.C23_tmp_ignored`, `Ckpt.C23_custom_prefix_not_listed`, `Chunk.C24_returns`, `Chunk.C24_tight`, `Bytes.C25_never_exceeds`, `Bytes.C25_shared_limit`, `Bytes.C25_asserts`, `Bytes.C25_all_returned`, `Bytes.C25_progress`, `Bytes.C25_terminates`, `Bytes.C25_large_array_hangs`, `Bytes.C25_no_common_limit`, `Ckpt.C26_selection_partial`, `Ckpt.C26_step_zero`, `Ckpt.C26_find_checkpoint`, `RestoreCfg.C27_first_config`, `RestoreCfg.C27_none`, `RestoreCfg.C27_training`, `RestoreCfg.C27_training_errors`, `RestoreCfg.C27_from_checkpoint`, `RestoreCfg.C27_other_dirs_ignored`, `Msgpack.C28_key_tree`, `Msgpack.C28_contains_ts_spec`, `TsPath.C29_distinct_partial`, `TsPath.C29_collision`, `TsPath.C29_write_place`, `TsPath.C29_bucket`, `TsPath.C29_local`, `TsPath.C29_read_place`, `Train.C30_steps`, `Train.C30_failure`, `Train.C30_rng`, `Train.C30_split`, `Train.trainStep_shape`, `Train.C30_one_step`, `Train.C31_cover`, `Train.C31_same_result`, `Train.C31_chain`, `EarlyStop.C33_stop_iff`, `EarlyStop.C33_latch`, `EarlyStop.C33_patience_one`, `TrainLoop.C34_schedule_partial`, `Infer.C36_results`, `Infer.C36_map`, `Infer.C36_aux`, `InferRestart.C37_markers`, `InferRestart.C37_restart_partial`, `InferRestart.C37_completes`, `InferRestart.C37_output`, `InferRestart.C37_truncated`, `InferRestart.C37_stuck`, `InferRestart.C37_stuck_markers`, `InferRestart.C37_too_many_chunks`, `EvalAll.C39_once`, `EvalAll.C39_order`, `EvalAll.C39_complete`, `EvalAll.C39_first_run`, `EvalAll.C39_blank`, `EvalAll.C39_torn_record`, `Mesh.C40_mesh`, `Mesh.C40_rows`, `Mesh.C40_hosts`, `Mesh.C40_succeeds`, `LocalChunk.C41_tiles`, `LocalChunk.C41_holds`, `LocalChunk.C42_layout`, `LocalChunk.C42_moe`, `MoeMesh.C43_axis`, `MoeMesh.C43_devices`, `Schedule.C44_product`, `Schedule.C44_floor`, `Schedule.C44_unknown`, `Schedule.C44_default`, `Schedule.C44_default_shape`, `Schedule.C44_cosine`, `Schedule.C45_least_multiple`, `OptaxState.C46_round_trip`, `OptaxState.C46_missing`, `MultiOpt.C47_apply`, `MultiOpt.C47_overlap`, `MultiOpt.C47_init`, `MultiOpt.C47_short_hyper`, `Adafactor.C48_update`, `Adafactor.C48_dims`, `Adafactor.C48_run`, `Adafactor.C48_nan_free`, `Adafactor.C48_batch`, `Adafactor.C48_axis_rules`, `Importer.C49_first_rule`, `Importer.C49_apply`, `Importer.C49_t5_names`, `Importer.C49_keys_distinct`, `Importer.C49_t5_import`, `Importer.C49_collision`, `Importer.C49_missing_slots`, `Importer.C49_slots_complete`, `Importer.C49_relpos`, `Importer.C49_state_dict`, `Importer.C49_missing_unnoticed`, `NamedTree.C50_map`, `NamedTree.C50_scale`, `NamedTree.C50_no_leaves`, `GinArgs.C51_rewrite`, `GinArgs.C51_positions`, `TrainState.C52_create`, `TrainState.C52_round_trip`, `TrainState.C52_replace_step`, `TrainState.C52_inference`, `TrainState.C52_logical`, `TrainState.C52_unnamed_mutables`, `DecParams.C53_independent`, `DecParams.C53_rng`, `DecParams.C53_other_models`, `Masks.C54_packing_isolation`, `Beam.C55_finished_score`, `Beam.C55_live_score`, `Beam.C55_eos_in_prompt`, `Beam.C56_distinct`, `ApplyGrad.C59_apply`, `ApplyGrad.C59_clip`, `ApplyGrad.C59_init`, `KVCache.C60_incremental`, `KVCache.C60_needs_nonpadding`, `KVCache.C61_prefill`, `KVCache.C61_padding_in_prompt`, `Score.C62_encdec`, `Score.C62_decoder_only`, `Score.C62_padding_sampled`, `Score.C63_encdec`, `Score.C63_decoder_only`, `SaveRestore.C64_round_trip`, `SaveRestore.C64_sound`, `SaveRestore.C64_second_save`, `SaveRestore.C64_dot_collision`, `SaveRestore.C64_uint16`, `SaveRestore.C64_no_save_dtype`, `SaveRestore.C64_shape_not_checked`, `Calm.C65_exit`, `Calm.C65_all_layers`, `Calm.C65_min_exit`, `Calm.C65_softmax_max`, `Calm.C65_softmax_diff`, `Calm.C65_threshold_one`, `Calm.C65_oracle`, `Calm.C65_decodes`, `Calm.C65_records`, `Calm.C65_min_exit_hangs`, `Calm.C65_position_ignored`, `Calm.C65_prefilled_mixes`, `Calm.C66_propagation_partial`, `Calm.C66_wrong_state`, `Calm.C66_oracle_cache_partial`, `Calm.C66_oracle_reruns`, `Export.C67_features`, `Export.C67_shift`, `Export.C67_invalid`, `Export.C67_bucket_last_token`, `Export.C67_tokenized_eos`, `Export.C67_split`, `Export.C68_prompt`, `Export.C68_eos_after_padding`, `Export.C68_targets_partial`, `Export.C69_before_eos`, `Export.C69_batch`, `Interactive.C70_batches`, `Interactive.C70_too_few`, `Interactive.C70_loop`, `Interactive.C70_single_batch`, `Interactive.C71_batches`, `Interactive.C71_infer`, `Interactive.C71_too_few`, `Interactive.C71_batch_size`, `Fallback.C72_fallback`, `Fallback.C72_succeeds`, `Fallback.C72_other_model`, `Fallback.C72_no_target`, `Fallback.C72_fallback_not_cast`, `Fallback.C72_empty_dropped`, `Upcycle.C73_experts`, `Upcycle.C73_others`, `Upcycle.C73_multi_host`, `Upcycle.C73_unchecked`, `OptaxAxes.C74_axes`, `OptaxAxes.C74_unregistered`, `OptaxAxes.C74_zero_nans`, `OptaxAxes.C74_masked_accumulation`, `OptaxAxes.C74_sm3`, `AxisRules.C75_defined`, `AxisRules.C75_assign`, `AxisRules.C75_batch`, `AxisRules.C75_model`, `AxisRules.C75_embed`, `AxisRules.C75_dims`, `AxisRules.C75_data_axis`, `AxisRules.C75_state_defined`, `AxisRules.C75_moe`, `AxisRules.C75_moe_2d`, `AxisRules.C75_moe_expert_mlp`, `AxesOverride.C76_override`, `AxesOverride.C76_rank`, `AxesOverride.C76_ranks_kept`, `AxesOverride.C76_no_axes`, `BaseMetrics.C77_report`, `BaseMetrics.C77_z`, `BaseMetrics.C77_features`, `BaseMetrics.C77_unpacked`, `BaseMetrics.C77_average_per_sequence`, `MoeLoss.C78_loss`, `MoeLoss.C78_missing`, `MoeLoss.C78_report`, `MoeLoss.C78_microbatches`, `ShardedArray.C79_batch`, `ShardedArray.C79_moe`, `ShardedArray.C79_any_size`, `ShardedArray.C79_whole_batch`, `ShardedArray.C79_rejects`, `AsyncMetrics.C80_written`, `AsyncMetrics.C80_total`, `AsyncMetrics.C80_no_error`, `AsyncMetrics.C80_progress`, `AsyncMetrics.C80_flush`, `AdafactorAxes.C81_filter`, `AdafactorAxes.C81_infer`, `AdafactorAxes.C81_derive`, `AdafactorAxes.C81_experts`, `AdafactorAxes.C81_filter_use`, `AdafactorAxes.C81_placeholder`, `AdafactorAxes.C81_override`, `EvalData.C82_defined`, `EvalData.C82_hosts`, `EvalData.C82_cover`, `EvalData.C82_once`, `EvalData.C82_steps`, `Vocabs.C83_vocabulary`, `Vocabs.C83_verify`, `Vocabs.C83_others_unchecked`, `InferLines.C84_lines`, `InferLines.C84_end_to_end`, `InferLines.C84_unnoticed`, `TrainerEval.C85_lockstep`, `TrainerEval.C85_host_zero`, `TrainerEval.C85_eval`, `WeightMetrics.C86_metrics`, `WeightMetrics.C86_consistent`, `WeightMetrics.C86_steps`, `WeightMetrics.C86_empty`, `LoadT5x.C87_load`, `LoadT5x.C87_lazy`, `LoadT5x.C87_empty`, `LoadT5x.C87_versions`, `LoadT5x.C87_transform`, `LoadT5x.C87_casts_everything`, `Orbax.C88_save_as_is`, `Orbax.C88_restore`, `Orbax.C88_succeeds`, `Orbax.C88_round_trip`, `Orbax.C88_save_dtype_lost`, `Orbax.C88_step_cast`, `Orbax.C88_empty`, `BeamDims.C89_flatten`, `BeamDims.C89_unflatten`, `BeamDims.C89_expand`, `BeamDims.C89_one_hot`, `BeamDims.C89_fancy`, `BeamDims.C89_cache_map`, `BeamDims.C89_init`, `BeamDims.C89_flat_cache`, `BeamDims.C89_step`, `BeamDims.C89_samples`, `CalmLoss.C90_weights`, `CalmLoss.C90_average`, `CalmLoss.C90_same`, `CalmLoss.C90_negative`, `CalmLoss.C90_balance`, `CalmLoss.C90_meta`, `CalmLoss.C90_meta_nan`, `CalmLoss.C90_first_agreeing`, `CalmLoss.C90_geom`, `CalmLoss.C90_geom_loss`, `CalmLoss.C90_z_unreported`, `AdafactorNum.C91_decay`, `AdafactorNum.C91_accumulators`, `AdafactorNum.C91_reachable`, `AdafactorNum.C91_step`, `AdafactorNum.C91_bounded`, `AdafactorNum.C91_momentum`, `AdafactorNum.C91_sign`, `AdafactorNum.C91_reset`, `AdafactorNum.C91_matrix`, `AdafactorNum.C91_zero_decay`, `SampleToken.C92_greedy`, `SampleToken.C92_score`, `SampleToken.C92_topp_search`, `SampleToken.C92_support`, `SampleToken.C92_topk_one`, `SampleToken.C92_tie`, `SampleToken.C92_traced_topp_zero`, `SampleToken.C92_below_neg_inf`, `SampleToken.C92_both`, `SampleToken.C92_identical`, `SampleToken.C92_generated`, `Transformer.C93_same_logits`, `Transformer.C93_packed`, `Transformer.C93_padding`, `Transformer.C93_causal`, `Transformer.C93_mask_exact`, `Transformer.C93_fully_masked`, `T5Decode.C94_decode`, `T5Decode.C94_packed`, `T5Decode.C94_score`, `T5Decode.C94_full_cache`, `DecoderOnly.C95_same_logits`, `DecoderOnly.C95_packed`, `DecoderOnly.C95_causal`, `DecoderOnly.C95_prefill`, `DecoderOnly.C95_packed_predict`, `DecoderOnly.C95_score`, `PackedLoss.C96_loss`, `PackedLoss.C96_gradient`, `PackedLoss.C96_lm_loss`, `PackedLoss.C96_total_tokens`, `PackedLoss.C96_without_weights`, `PackedLoss.C96_examples`, `PackedLoss.C96_position`, `DsCkpt.C97_resume`, `DsCkpt.C97_other_shards`, `DsCkpt.C97_orbax`, `DsCkpt.C97_orbax_diverges`, `DsCkpt.C97_orbax_other`, `OrbaxMgr.C98_path`, `OrbaxMgr.C98_step`, `OrbaxMgr.C98_step_legacy`, `OrbaxMgr.C98_manager`, `OrbaxMgr.C98_config_findings`, `Beam.C99_found`, `Beam.C99_one_beam`, `Beam.C99_exhaustive`, `Beam.C99_not_monotone`.
* **Quot.sound, propext** (61 theorems): `Beam.C08_length`, `InteractiveEval.C106_postprocessor`, `InteractiveEval.C106_signature`, `InteractiveEval.C106_dataset`, `InteractiveEval.C106_invalid`, `InteractiveEval.C106_train_batch`, `MoeTrain.C119_prefix`, `MoeTrain.C119_dots`, `HybridMesh.C124_cpu`, `InferEval.C132_alone`, `InferEval.C132_first_axes`, `OptaxJob.C133_step`, `TrainLoop.C136_only_evaluates`, `TrainLoop.C136_too_late`, `TrainLoop.C136_relative`, `TrainLoop.C136_script`, `DecodeLimit.C138_absent`, `DecodeLimit.C138_rows`, `StateDict.C18_missing_error`, `StateDict.C19_name_tree`, `Chunk.C24_zero_dim`, `Msgpack.C28_bytes_keys`, `Train.C31_assert`, `Train.C31_one_dropout_key`, `Metrics.C32_totals`, `Metrics.C32_order`, `Metrics.C32_summary`, `Metrics.C32_last`, `Metrics.C32_dict`, `Metrics.C32_from_values`, `Metrics.C32_no_merge_after_duration`, `EarlyStop.C33_missing`, `TrainLoop.C34_last_extra_step_crashes`, `TrainLoop.C34_gap_needed`, `TrainLoop.C35_no_training_after_stop`, `TrainLoop.C35_early_return_only_if_asked`, `TrainLoop.C35_stop_saves_partial`, `TrainLoop.C35_train_eval_ignored`, `Infer.C36_empty`, `Executor.C38_reported`, `Executor.C38_synchronous`, `Mesh.C40_default`, `LocalChunk.C42_rejects`, `OptaxState.C46_no_empty`, `MultiOpt.C47_hyper`, `Importer.C49_unmatched`, `Masks.C54_leak_without_encoder_tokens`, `Train.C57_restarts`, `TrainLoop.C58_faithful`, `TrainLoop.C58_preempted`, `Export.C67_split_absent`, `Export.C68_unequal`, `Export.C69_warmup_complete`, `Export.C69_decoder_params`, `Export.C69_names`, `AxisRules.C75_state`, `EvalData.C82_train`, `EvalData.C82_airio_steps`, `InferLines.C84_file`, `TrainerEval.C85_compile`, `TrainerEval.C85_compiled_same`.
* **propext** (24 theorems): `Sampling.C06_gap_prompt_lost`, `Sampling.C06_zero_steps`, `InteractiveEval.C106_bytes`, `InteractiveEval.C106_lengths`, `InteractiveEval.C106_hosts`, `StartState.C123_map_first`, `StartState.C123_twice`, `ModelInfo.C129_other_hosts`, `InferEval.C132_hosts`, `Msgpack.C28_unique`, `TrainLoop.C34_extra_steps_need_period`, `TrainLoop.C35_stop_without_save`, `Infer.C36_not_sorted`, `LocalChunk.C41_tail_lost`, `MoeMesh.C43_zero`, `OptaxState.C46_plain`, `Export.C68_targets_fail`, `Export.C69_warmup`, `Export.C69_warmup_exact`, `AdafactorAxes.C81_beta1_zero`, `AdafactorAxes.C81_partitions`, `EvalData.C82_deterministic`, `EvalData.C82_airio`, `BeamDims.C89_nan_spreads`.
* **none** (2 theorems): `Train.C57_needs_dataset`, `Export.C69_no_decoder_params`.

## Findings

Behaviour of the code that contradicts what a reader of the API would expect; "proved" names the theorem with the witness.

Checkpoints
* A crash while an old checkpoint is being deleted leaves a visible incomplete checkpoint, and saving that step again is skipped (`C20_crash_while_pruning`). On `gs://` the final move is not atomic (`C20_gs_not_atomic`).
* Saving a step lower than the retained ones deletes the new checkpoint at once (`C21_backward_save_lost`).
* `SaveBestCheckpointer` finds no values of a metric `a/b/tag` if there are event files in the directory `a` as well: the first directory that is a prefix of the name is taken as the run, and the directory `a/b` is skipped (C131_hidden).
* Listing steps ignores a custom directory prefix (`C23_custom_prefix_not_listed`).
* `_choose_chunk_shape` raises IndexError on a dimension of size 0 (`C24_zero_dim`).
* The byte limiter waits for ever for an array at least as large as the limit, and the limit is not shared between limiters (`C25_large_array_hangs`, `C25_no_common_limit`).
* An explicit restore step 0 is ignored (`C26_step_zero`).
* Of several restore directories only the first with checkpoints is used (`C27_other_dirs_ignored`).
* The msgpack key reader misreads bytes keys (`C28_bytes_keys`).
* Parameters whose names differ in '.' and '/' share a tensorstore path (`C29_collision`). A bare `gs://bucket` is not recognised as a bucket.
* A partitioned uint16 array can be saved but not restored (`C64_uint16`); without `save_dtype` unpartitioned parameters are cast to the default dtype (`C64_no_save_dtype`); two keys that differ in '.' and '/' overwrite each other's array (`C64_dot_collision`); the shape of arrays in the msgpack file is not checked (`C64_shape_not_checked`).
* An assignment map entry is shadowed by an unused checkpoint entry with the target's own name (`C18_shadowed`); a later rule with the same pattern raises or wins (`C18_first_rule_ignored`).
* The legacy importer lets `decoder/` and `transformer/` names of one parameter collide (`C49_collision`) and does not notice missing variables (`C49_missing_unnoticed`).
* Mutable collections without axes are accepted and then missing from the logical axes (`C52_unnamed_mutables`).
* Restoring with a fallback state: fails if `restore_dtype` is given and no parameter is in common (`C72_no_target`), does not cast the fallback's values (`C72_fallback_not_cast`), drops empty dicts (`C72_empty_dropped`).
* Sparse upcycling cuts the host's chunk out of the global array (`C73_multi_host`), does not check `num_experts`, does not broadcast arrays from the msgpack file or unpartitioned ones, and cannot restore full-shape `m`/`v` of experts (`C73_unchecked`).
* `load_t5x_checkpoint` casts the optimizer state and the step too if a `restore_dtype` is given (`C87_casts_everything`), and fails with an AttributeError on a state with an empty dict (`C87_empty`; `OptaxWrapper` drops those of the optimizer state).
* With Orbax, `save_dtype` has no effect: names are joined with '/' but `_construct_save_args` splits them at '.', so no name ever starts with the component `target` (`C88_save_dtype_lost`). The restore dtype is also applied to arrays without partition spec, such as the step, which a bfloat16 cannot hold beyond 256 (`C88_step_cast`). An empty dict in the train state makes restoring fail (`C88_empty`).
* With the Orbax manager only the first process of a replica set restores its dataset iterator; the others start over and fill the same rows of the global batch with other examples (`C97_orbax_diverges`). Its dataset files cannot be restored with another number of processes (`C97_orbax_other`).
* The Orbax manager asked for a step of a directory with T5X checkpoints restores the latest one (`C98_step_legacy`).
* `create_orbax_checkpoint_manager` tests `issubclass(type(cls), SaveBestCheckpointer)`, which is never true of a class: its metric settings are ignored and the newest checkpoints are kept; `save_dataset` alone restores the iterator too (`C98_config_findings`).
* With `use_orbax` and a `checkpoint_manager_cls` other than the default in the save configuration, the first start of a job works and every later one raises "Must provide matching configurations": the configuration for resuming always has the default class (C123_never_resumes).
* With Orbax the data pipeline is read from the initial checkpoint if `save_dataset` or `restore_dataset` is set: a job that saves its pipeline and starts from another job's checkpoint goes on with the other job's pipeline (C123_orbax_dataset).
* An interactive model without `checkpoint_path` cannot be made if its output directory has a checkpoint: AttributeError, since the manager was made without a restore configuration (C123_interactive).
* A configured transformation that ignores `is_resuming` is applied again at every start of the job (C123_twice). `fallback_to_scratch` without transformations is rejected by the managers for TensorFlow checkpoints and ignored by the initialiser; an empty path ends in "Cannot restore multiple checkpoints" (C123_initializer_conv).
* `export_lib.save` does not disable `strict` as eval and infer do, so a TensorFlow checkpoint with optimizer slots can be exported only with `strict=False` in the configuration (C123_export).

Training, evaluation, inference
* With `SaveCheckpointConfig.dtype` other than the dtype of the parameters, a job that is killed and resumes goes on with rounded parameters of the dtype of saving, and ends elsewhere than without the kill (`C125_rounding`).
* The emergency checkpoint after a `PreemptionError` inside a block of steps pairs the train state from before the block with iterators that have moved on, so a restart skips the batches of the interrupted steps (`C102_preempted`). With donated buffers (`trainer.py` line 1039) that old state may not even be readable.
* `checkpoint_steps`: the last extra step crashes the loop, gaps are needed, and they need a period (`C34_*`).
* A stop request of TRAIN_EVAL actions is overwritten by INFER_EVAL, and a stop off the checkpoint period is not saved (`C35_*`).
* Early stopping with patience 0 or 1 stops at the first value (`C33_patience_one`).
* All microbatches of a step use one dropout key (`C31_one_dropout_key`).
* Dropout masks of features are shared by all positions of a row (`broadcast_dims=(-2,)`), hence by all examples packed in it, and those of attention weights by all queries; only the encoder output has a mask per position. So packing correlates the noise of examples; the expected loss and gradient are those of padded batches (`C113_expected_loss`, `C113_gradient`).
* With `dropout_rate=1` the multiplier of the attention weights is 0/0, while `nn.Dropout` returns zeros; C113 is for rates below 1.
* Without `save_dataset` a restarted job repeats data (`C57_needs_dataset`).
* `get_training_eval_datasets(deterministic=True)` raises a NameError (`C82_deterministic`).
* For AirIO tasks the evaluation during training is not what `eval_steps` and `batch_size` say: every host evaluates the same batches of one example, and `eval_steps * batch_size` epochs of them, one step each (`C82_airio`, `C82_airio_steps`; the code has a TODO about the missing limit).
* If host 0 has the fewest evaluation batches it writes a summary although the other hosts fail (`C85_host_zero`).
* `weight_update_divided_by_weight_rms` is not finite once one old weight is zero (`C86_metrics`).
* The vocabularies of further features of a task with inputs and targets are not compared with the model's (`C83_others_unchecked`).
* The writer of inferences drops surplus predictions silently and notices an unknown mode only if there is an example (`C84_unnoticed`); with all decodes `prediction_tokens` keeps the padding.
* Inference: a crash while the temporary directory is removed can leave a truncated output that is taken for complete (`C37_truncated`); there are crash points after which no restart succeeds (`C37_stuck*`); more than 100000 chunks are dropped (`C37_too_many_chunks`); an empty data set raises (`C36_empty`); `infer_fn` alone does not restore the order (`C36_not_sorted`).
* `FailFastThreadPoolExecutor.submit` waits for the task it has just submitted (`C38_synchronous`).
* Continuous evaluation: the first run looks at one directory only, blanks in paths and a torn record make it fail for ever (`C39_*`).
* `NUM_TOTAL_TARGET_TOKENS` makes the loss, and so the gradient, depend on how much padding the batch has (`C96_total_tokens`). A batch without `decoder_loss_weights` and a factor that is None or a number trains on padding too (`C96_without_weights`).
* With `AVERAGE_PER_SEQUENCE` the loss weights are fractions, so that the metric `loss_per_nonpadding_target_token` is a loss per sequence and `non_padding_fraction/loss_weights` says nothing about padding (`C77_average_per_sequence`).
* Mixture of experts with M microbatches: the averaged expert losses are added once per microbatch, so that their factor is in effect multiplied by M, and fractions such as `experts/expert_usage` are reported M times too large (`C78_microbatches`).
* `_create_sharded_array` accepts a host batch with any number of blocks: surplus rows are dropped, missing ones are replaced by repeating the first blocks; a dataset that ignores the shard id makes all hosts train on the first rows of the batch (`C79_any_size`, `C79_whole_batch`). Fewer rows than one block give a ZeroDivisionError, not the intended ValueError (`C79_rejects`).
* CALM: the loss of the early exit classifier is NaN if no loss weight is exactly one, as with `AVERAGE_PER_SEQUENCE` (`C90_meta_nan`); `aggregation_weights` below -1 gives negative weights, or a division by zero for two layers (`C90_negative`); the z-loss in the geometric-like loss is reported as zero (`C90_z_unreported`).
* `train()` with `num_steps=0` has no metrics to summarise; not proved.
* `contrib/gpu/t5` with `scale_attn_logits=True` (set in `t5_1_1/adamw_opt.gin`) divides the attention logits of a new model by the head dimension, not by its root, because the query initialiser already divides by the root (`C101_init`); tokens outside the vocabulary are embedded as the last row of the table instead of zero (`C101_outside`).
* With a `SpecialLossNormalizingFactor`, `num_microbatches` changes the gradient and the reported loss: with `NUM_TOTAL_TARGET_TOKENS` they are `num_microbatches` times as large (`C104_num_total`, `C104_equal_rows`, `C104_differs`).  Adafactor hides the scale; clipping of gradients, SGD and the loss curves do not.

Decoding
* Beams with equal scores change places in every iteration that a row waits for the others: the prediction returned can depend on the batch (`C110_ties`); `min_log_prob` stops the search only when all rows of the batch are below it (`C110_min_log_prob`).
* With prefilled prompts of different lengths, beam search runs as long as the row with the shortest prompt has room. Rows with longer prompts are then searched beyond their length limit (where their caches are full), and what is found there decides what is returned, cut at the limit; so their result depends on the batch (`C110_longer_prompt`). The docstring of `beam_search` mentions the cut.
* Padding inside a prompt loses the later tokens (`C06_gap_prompt_lost`), shortens the prefill index (`C61_padding_in_prompt`); `max_decode_steps=0` still generates a token (`C06_zero_steps`).
* -inf logits are replaced by the top-k mask even if there are fewer finite ones than k (`C04_neg_inf_replaced`).
* With an array of temperatures, `jax.vmap` over the rows uses the same key for every row: all `num_decodes` decodes of an example are the same (`C92_identical`), and different examples get the same random numbers.
* A traced `topp` of 0.0 does not switch top-p off: everything is masked and tokens are drawn uniformly (`C92_traced_topp_zero`). Scaled logits below -1e7 lose against masked ones (`C92_below_neg_inf`). With ties, `topk=1` is neither deterministic nor of log-probability 0 (`C92_tie`).
* Beam search: the termination bound is not valid beyond the maximal length (`C08_needs_length`); EOS inside a forced prompt wins with score 0 (`C55_eos_in_prompt`).
* More beams can be worse: two beams return -52.5 where one returns -4; one beam is not greedy decoding (`C99_not_monotone`).
* Beams are gathered by a one-hot contraction, so a NaN or infinity in the cache of one beam gets into all beams of its batch row (`C89_nan_spreads`).
* A packed example without encoder tokens attends to the others (`C54_leak_without_encoder_tokens`): a query whose keys are all masked attends as if nothing were masked, because the mask is a finite bias (`C93_fully_masked`).
* `decoder_params` is changed in place: a second rng is refused, an old one reused, `eos_id` and `initial_index` leak to other models (`C53_rng`, `C53_other_models`).
* Targets with padding inside are scored with another mask than they are generated with (`C60_needs_nonpadding`).
* If the padding token is sampled, the returned log-probability counts it and `score_batch` does not (`C62_padding_sampled`). With the default `rescale_log_probs=True` the returned scores are those of the rescaled distribution (0 for greedy decoding).
* Early exit decoding passes the hidden state of the first exit, not of the last layer run, to the skipped layers (`C66_wrong_state`); `oracle_cache` runs the last layers twice if `exit_interval > 1` (`C66_oracle_reruns`); `min_exit` beyond the last layer never ends (`C65_min_exit_hangs`); `position_adjusted_threshold` has no effect (`C65_position_ignored`); records are mixed up with a prefilled cache (`C65_prefilled_mixes`). Read but not proved: CALM's `predict_batch_with_aux` indexes an empty list if `apply_early_inference` is off, and its sampler cannot be given `max_decode_steps`.

Partitioning and optimizers
* `default_mesh` ignores `num_partitions` on CPU: the model axis always has all devices of a process (`C124_default`).
* `get_gpu_mesh` accepts a multiple of the GPUs of a host whose factor does not divide the number of hosts, which then fails only inside jax (`C124_gpu`: no mesh).
* Scanning over layers changes the training with Adafactor in two cases: a matrix with a dimension below `min_dim_size_to_factor` is factored only in a stack (`C115_small_differs`), and with `factored=False` parameter scale and clipping are computed over all layers together (`C115_unfactored_differs`).
* `param_scan_axis` of the scalable T5 can only be 0 or 1: with 2 or more initialisation fails on the scales of the layer norms (`C116_axis`).
* With two model dimensions of activations and one of parameters the standard rules have no last rule for 'embed': an additional rule for 'embed' then also places kernels (why `C114_partition` excludes such rules).
* `init` raises with segment ids for the encoder only, with different batch sizes, and with layers but no activations (`C114_raises`).
* Chunks lose the tail of an array that is not divisible (`C41_tail_lost`); `num_expert_partitions=0` divides by zero (`C43_zero`).
* A hyper-parameter list that is too short silently skips optimizers (`C47_short_hyper`).
* A negative `global_norm_clip_threshold` silently disables clipping (`C59_clip`).
* Adafactor with `weight_decay_rate_lr_exponent` and `weight_decay_rate=0.0` decays as if the rate were 1 (`C91_zero_decay`).
* Named tree mapping raises on a tree without leaves (`C50_no_leaves`).
* The partition rules for `zero_nans` and SM3 make `derive_logical_axes` fail (`C74_zero_nans`, `C74_sm3`), and so does gradient accumulation inside a masked transformation (`C74_masked_accumulation`).
* Adafactor with `beta1=0.0` keeps a momentum that gets no axes, so every device holds all of it (`C81_beta1_zero`); the one-element placeholders `v_row` and `v_col` of an expert kernel that is not factored are given the axis 'expert' (`C81_placeholder`).
* An unknown learning rate factor is detected at the first evaluation only (`C44_unknown`).
* The mixture-of-experts rules with `parameter_partitioning_dims=2` execute `raise logging.warning(...)`, which is a TypeError (`C75_moe_2d`). With the default expert rules the dimension 'embed' of an expert kernel takes the model axis, so that the rule for 'expert_mlp' is never followed (`C75_moe_expert_mlp`).
* Read but not proved: `default_mesh` ignores `num_partitions` on CPU; `get_gpu_mesh` does not check divisibility; overriding Adafactor's `beta1` from `None` changes the shape of `m`.
* An empty dict among the parameters is lost in `Adafactor.init_state` and in the first `apply_gradient` (`C128_empty`).

Export and interactive use
* `InteractiveModel.evaluate` with metric functions of scores only (or none) ends in an UnboundLocalError: `aux_values` is assigned only with predictions (C106_scores_only). Its targets are `bytes` and its predictions `str`, so comparing them for equality never succeeds without a postprocessor (C106_bytes), but the postprocessor is not applied to predictions (C106_postprocessor). With several processes, process 0 waits at a barrier that the others never reach (C106_hosts).
* A target row that fills its length bucket loses its last token from the decoder inputs when it is batched with a longer row (`C67_bucket_last_token`). For padded tokenized inputs EOS is put after the padding, and the empty targets get an EOS that counts (`C67_tokenized_eos`, `C68_eos_after_padding`). `truncate_and_pad_tokenized_input` sorts the caller's list of lengths in place.
* With `bucket_keys` for the targets, an exported predicting model decodes only as many positions as the smallest bucket: the targets of the preprocessor are empty, and the width of `decoder_input_tokens` limits decoding (`C108_short_predictions`). The lost last token of `C67_bucket_last_token` never changes a score (`C107_served`).
* `create_decoder_preprocessor` fails on several rows with the feature 'targets' (`C68_targets_fail`) and on texts of different numbers of tokens (`C68_unequal`).
* Warmup generation refuses random tokens of exactly the wanted number (`C69_warmup_exact`); an empty `decoder_params_spec` takes all arguments away from the preprocessor (`C69_no_decoder_params`).
* `train_loop` of the interactive model leaves out steps if the number of batches does not divide `num_steps` (`C70_too_few`), and predicts for the texts "input" and "target" if a single batch is given for prediction (`C70_single_batch`).
* `MoeTrainer` cannot train a model without parameters unless `sharded_match_fn` is None (`zip(*())` raises), though `Trainer` can (C119_no_parameters).
* The factor `num_expert_partitions` of `MoeTrainer` has no influence on training with Adafactor, apart from the weight of `epsilon1` and from clipping of the global norm (C119_adafactor).
* `log_model_info` raises a TypeError for a model without parameters, on host 0 only (C129_no_parameters, C129_other_hosts).
* The docstring of `MultiOptimizer` says that it works with wrapped optax optimizers. Read against flax's `flatten_dict`, which accepts dicts only, it does not: `_tree_of_paths` (optimizers.py 594) is called with the tuple that optax uses as state. This is outside the model (C134 assumes states that are trees like the parameters, as Adafactor's are).
* With an optax optimizer the `learning_rate_fn` of the trainer is logged as the learning rate but has no effect on training (C133_learning_rate).
* `InferenceEvaluator` looks at `train_state_axes` in its first call only; later calls with other axes use the functions compiled for the first ones (C132_first_axes).
* On packed batches `timing/seqs` and `timing/seqs_per_second` count rows, not sequences; only `effective_batch_size` counts examples (C120_layout).
* `PreprocessorFnFromTask` fails on the whole request if the task filters one example out (C121_process_filter), and silently answers with rows of other examples if the task makes several rows of one (C121_process_expand).
* `create_fake_input` refuses a dimension of size 0 with the message for polymorphic dimensions (C121_fake); a trailing slash in `output_dir` makes the export fail for its version (C121_dirs_fails).
* `get_seqio_task_from_examples(..., add_to_registry=False)` creates no task at all: it raises an error, or returns an older task or mixture of the same name (`C135_interactive`).
* The "unique" name that `create_task_from_tfexample_file` computes joins paths and keys with colons, so that `['a:b']` and `['a', 'b']` get the same one; a call with the same files but other features gets the same one too, and fails (`C135_colon`, `C135_again`).
* The configuration that `get_gin_config_from_interactive_model` writes for evaluation sets `total_steps = 0`; for a checkpoint with a step above 0 the run evaluates, saves a checkpoint and then raises a ValueError (`C136_script`). It also makes no inference evaluation, since `pretrain.gin` sets `infer_eval_dataset_cfg = None`; the `metric_fns` of the task are not used.
* A run of `train` that only evaluates returns at train.py 605, before `checkpoint_manager.close()` (802) and `gc.enable()` (810): with `gc_period` the garbage collector of the process stays disabled. This is read from the code; the model of the schedule has neither.
* `precompile` lowers the training step for the rows of one shard only, while `train` compiles it for the whole batch; with several shards the program that it dumps is not that of training (`C137_batches`).
* The check for several restore paths in training (train.py:362-363) cannot fire: a string path is one path and a non-empty sequence is rejected before
  (`C27_training_errors`).  An earlier version of `seeded/LOG.jsonl` said that removing it makes `C27_from_checkpoint` fail; that was wrong, the line is corrected.
* `temperature_sample` repeats the rows for several decodes but not a vector `max_decode_steps`: with two rows or more the call fails (`C138_decodes`).
  `max_decode_steps_hard_limit` without `max_decode_steps` limits nothing (`C138_absent`).
* With a vocabulary of one token and label smoothing, the targets do not sum to one: the loss is negative and the gradient of the custom backward pass is
  off by the smoothing constant (`C13_one_token`).
