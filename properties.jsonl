{"id": "C01", "title": "int32 binary search finds the exact boundary", "statement": "For every predicate on int32 that, once True, stays True for all larger values, int32_bsearch returns the largest int32 at which the predicate is False; if the predicate is True everywhere it returns INT32_MIN.", "quantifier": "every monotone predicate on the 2^32 int32 values", "why_tests_cant": "The predicate is an arbitrary function; there are 2^32+1 monotone predicates and the bit twiddling differs at the sign bit, tests try a handful.", "anchors": ["t5x/binary_search.py:int32_bsearch"]}
{"id": "C02", "title": "int32/float32 bit reinterpretation is an order-preserving bijection", "statement": "The map from int32 to float32 bit patterns used by the float search is its own inverse and is monotone: for all finite patterns a larger integer gives a larger-or-equal float value, equal only for -0/+0.", "quantifier": "every pair of 32-bit patterns", "why_tests_cant": "2^64 pairs; error would hide around sign changes, subnormals and exponent boundaries.", "anchors": ["t5x/binary_search.py:_monotonic_int32_to_float32_bit_pattern"]}
{"id": "C03", "title": "float32 binary search finds the exact boundary", "statement": "For every predicate monotone over finite float32 values, float32_bsearch returns the largest finite float32 at which the predicate is False whenever there is one, and never evaluates to NaN: if the predicate is True on every finite float it returns -inf.", "quantifier": "every monotone predicate on finite float32 values", "why_tests_cant": "arbitrary predicate over 2^32 values including signed zeros, subnormals and non-finite patterns.", "anchors": ["t5x/binary_search.py:float32_bsearch"]}
{"id": "C04", "title": "top-k mask keeps exactly the top k", "statement": "topk_mask keeps an entry iff fewer than k entries are strictly larger (so at least min(k,n) entries survive and more than k only through ties at the cutoff); every dropped entry becomes replace_val and every kept one is untouched.", "quantifier": "every vector length, every vector of finite float32 values with any ties, every k >= 1", "why_tests_cant": "ties, signed zeros and boundary values; infinitely many shapes.", "anchors": ["t5x/binary_search.py:topk_mask"]}
{"id": "C05", "title": "top-p mask keeps the smallest sufficient nucleus", "statement": "topp_mask keeps an upward-closed set of entries whose total probability is at least p, and no smaller upward-closed set has that mass; if the probabilities sum to less than p everything is kept.", "quantifier": "every probability vector and every p", "why_tests_cant": "continuous space of vectors with ties and thresholds.", "anchors": ["t5x/binary_search.py:topp_mask"]}
{"id": "C06", "title": "sampling decode preserves prompts and stops cleanly", "statement": "For every model and sampling policy, temperature_sample returns for each row whose prompt has no padding inside and whose first index is below its length limit the row's prompt tokens unchanged, then sampled tokens, and nothing but padding after the first sampled EOS (EOS id not 0); the loop terminates within the sequence length for every input.", "quantifier": "every next-token function, batch, prompt and length, every number of loop steps", "why_tests_cant": "the loop's behaviour depends on an arbitrary model; tests use a scripted toy model.", "anchors": ["t5x/decoding.py:_temperature_sample_single_trial", "t5x/decoding.py:temperature_sample"]}
{"id": "C07", "title": "two-stage top-k equals top-k", "statement": "For rows without NaN, top_k_two_stage returns the k largest values in decreasing order and indices that select exactly those values from the input row.", "quantifier": "every row of scores, every group split and k", "why_tests_cant": "the index arithmetic is only wrong for particular group/remainder combinations.", "anchors": ["t5x/decoding.py:top_k_two_stage"]}
{"id": "C08", "title": "beam search early termination loses nothing", "statement": "When beam search stops before the maximum length, for every batch row no continuation of any live beam within the maximum length can reach a score above the worst finished beam kept for that row, whatever the model would have predicted next.", "quantifier": "every model with log-probabilities <= 0, every alpha >= 0, every loop state", "why_tests_cant": "quantifies over all futures of an arbitrary model.", "anchors": ["t5x/decoding.py:beam_search"]}
{"id": "C09", "title": "prompt alignment is lossless", "statement": "Right-aligning right-padded prompts and left-aligning them back returns the original prompt tokens at the start of the row; right alignment moves every token by exactly the number of trailing pads and keeps order.", "quantifier": "every batch of right-padded prompts, of any width and lengths", "why_tests_cant": "shifts are composed from powers of two; errors show only for particular lengths.", "anchors": ["t5x/decoding.py:_right_align_prompts", "t5x/decoding.py:_left_align_prompts"]}
{"id": "C10", "title": "prefix removal", "statement": "remove_prefix deletes exactly the first prefix_length tokens of each row, keeps the rest in order and zero-fills the tail, for every prefix length up to the row width.", "quantifier": "every row and prefix length", "why_tests_cant": "index clamping and fill boundary differ per length.", "anchors": ["t5x/models.py:remove_prefix"]}
{"id": "C11", "title": "decoder attention mask semantics", "statement": "In the decoder mask, position i may attend to j iff both tokens are non-padding, (j <= i or both are inside the bidirectional prefix), and, when segment ids are given, both belong to the same packed segment.", "quantifier": "every token sequence, causal-attention vector and segment assignment", "why_tests_cant": "combination of three masks over unbounded lengths.", "anchors": ["t5x/examples/t5/layers.py:make_decoder_mask", "t5x/examples/t5/layers.py:make_causal_mask", "t5x/examples/t5/layers.py:make_attention_mask", "t5x/examples/t5/layers.py:combine_masks"]}
{"id": "C12", "title": "relative position buckets are valid and monotone", "statement": "The relative-position bucket is always inside [0, num_buckets), does not decrease with distance on each side, separates past from future in bidirectional mode, and is constant beyond max_distance.", "quantifier": "every relative position and every valid (num_buckets, max_distance)", "why_tests_cant": "unbounded integers and all parameter settings; the log branch boundary is easy to get wrong by one.", "anchors": ["t5x/examples/t5/layers.py:_relative_position_bucket"]}
{"id": "C13", "title": "hand-written loss gradient is the true gradient", "statement": "The custom backward pass of cross_entropy_with_logits equals the derivative of the value returned by the forward pass with respect to every logit (targets summing to one), including the z-loss term, and the forward value equals the textbook softmax cross entropy plus z*log(Z)^2.", "quantifier": "every logits vector, target distribution and z_loss coefficient", "why_tests_cant": "gradients are continuous functions; numeric checks sample points.", "anchors": ["t5x/losses.py:cross_entropy_with_logits", "t5x/losses.py:_cross_entropy_with_logits_fwd", "t5x/losses.py:_cross_entropy_with_logits_bwd"]}
{"id": "C14", "title": "smoothed loss is nonnegative and consistent with hard labels", "statement": "With any label smoothing in [0,1) the per-token loss before z-loss is never negative, and with smoothing 0 it equals minus the log-probability of the target token.", "quantifier": "every logits vector, vocabulary size >= 2, target and smoothing value", "why_tests_cant": "real-valued inequality over all logits.", "anchors": ["t5x/losses.py:compute_weighted_cross_entropy"]}
{"id": "C15", "title": "per-sequence loss normalisation gives each packed sequence total weight 1", "statement": "For packed rows, dividing weights by the per-segment sums gives each packed sequence with nonzero weight a total weight of exactly 1, whatever the number, length and weights of the segments.", "quantifier": "every packed row: any number of segments, any lengths, any nonnegative weights, any trailing padding", "why_tests_cant": "cumsum / repeat-last tricks fail only for particular zero-weight or one-token segments.", "anchors": ["t5x/losses.py:_sum_weights_per_segment", "t5x/losses.py:get_loss_normalizing_factor_and_weights"]}
{"id": "C16", "title": "packed example counting", "statement": "count_packed_examples returns the number of distinct non-padding segments over all rows.", "quantifier": "every batch of packed rows", "why_tests_cant": "unbounded shapes; boundary with trailing padding.", "anchors": ["t5x/models.py:count_packed_examples"]}
{"id": "C17", "title": "restricting a restored state to the known parameters", "statement": "intersect_state keeps exactly the entries present in both trees, with the first tree's values, and merge_state fills missing entries from the fallback without changing any existing value; applying merge after intersect yields exactly the key set of the target. (Names without '/' and other than 'driver'; no leaf of one state above a leaf of the other.)", "quantifier": "every pair of nested state dicts", "why_tests_cant": "recursive dictionaries of unbounded shape.", "anchors": ["t5x/state_utils.py:intersect_state", "t5x/state_utils.py:merge_state"]}
{"id": "C18", "title": "assignment map transfers the right parameter", "statement": "apply_assignment_map gives each target parameter the checkpoint value named by the first matching rule, leaves targets of skipping rules out, copies unmatched targets from the same name, drops nothing that was not explicitly skipped, and raises when a rule names a missing checkpoint entry; on resume it is the identity.", "quantifier": "every rule list, target state and checkpoint state", "why_tests_cant": "interaction between rules, key collisions and leftovers over arbitrary key sets.", "anchors": ["t5x/state_utils.py:apply_assignment_map"]}
{"id": "C19", "title": "state dict flattening round trip", "statement": "Flattening a nested state to 'a/b/c' names and unflattening returns the same state when no key contains the separator, and distinct leaves get distinct names; tensorstore leaf dicts stay whole.", "quantifier": "every nested state dict", "why_tests_cant": "recursive structure of unbounded depth and width.", "anchors": ["t5x/state_utils.py:flatten_state_dict", "t5x/state_utils.py:get_name_tree"]}
{"id": "C20", "title": "checkpoint saves are atomic under crashes", "statement": "At every crash point of any history of saves, prunes and restarts, each step reported by all_steps is a checkpoint whose full contents were written; the newest completed save is what restore(latest) loads.", "quantifier": "every history of save operations, every crash point, every restart", "why_tests_cant": "needs all interleavings of crash points; tests never kill the process between two filesystem calls.", "anchors": ["t5x/checkpoints.py:Checkpointer.save", "t5x/checkpoints_utils.py:all_steps", "t5x/checkpoints_utils.py:latest_step"]}
{"id": "C21", "title": "retention keeps the newest checkpoints and never a pinned one is lost", "statement": "After every save with keep=k, the k newest checkpoints are present, only oldest ones have been removed, pinned checkpoints are never removed, and with keep unset nothing is removed.", "quantifier": "every directory content, pin set, keep value and save history", "why_tests_cant": "depends on the whole history and set of pins.", "anchors": ["t5x/checkpoints.py:Checkpointer._remove_old_checkpoints", "t5x/checkpoint_utils.py:remove_checkpoint_dir"]}
{"id": "C22", "title": "save-best retention keeps the best and the latest", "statement": "SaveBestCheckpointer never removes the latest checkpoint nor a force-kept one, and never removes a checkpoint while keeping an eligible one with strictly worse metric; it leaves exactly keep plus the latest when there are enough eligible ones.", "quantifier": "every set of checkpoints, every metric assignment (ties and missing), both modes", "why_tests_cant": "ordering with ties and missing values over arbitrary sets.", "anchors": ["t5x/checkpoints.py:SaveBestCheckpointer._remove_old_checkpoints", "t5x/checkpoints.py:SaveBestCheckpointer._filter_out_force_keep_period_steps"]}
{"id": "C23", "title": "checkpoint directory naming round trip", "statement": "get_step_from_checkpoint_dir inverts get_checkpoint_dir for every step and directory, distinct steps get distinct directories, and all_steps (with the default prefix) returns exactly the steps of finished checkpoint directories in increasing order, ignoring temporary ones.", "quantifier": "every step number and every set of directory entries", "why_tests_cant": "unbounded numbers and arbitrary file names.", "anchors": ["t5x/checkpoints_utils.py:get_checkpoint_dir", "t5x/checkpoints_utils.py:get_step_from_checkpoint_dir", "t5x/checkpoints_utils.py:all_steps"]}
{"id": "C24", "title": "chunk shape is a divisor within the byte budget", "statement": "_choose_chunk_shape terminates and, for a write shape without a zero dimension, returns a shape that divides the write shape in every dimension, never larger than it, and with at most target_elements elements whenever target_elements >= 1.", "quantifier": "every write shape and every target", "why_tests_cant": "greedy loop over factorisations of arbitrary integers.", "anchors": ["t5x/checkpoints.py:_choose_chunk_shape"]}
{"id": "C25", "title": "write-concurrency limiter", "statement": "The byte-counting condition variable never hands out more bytes than its limit, all bytes are returned, and every waiting writer eventually proceeds.", "quantifier": "every number of writers, every array sizes, every schedule", "why_tests_cant": "liveness over all schedules.", "anchors": ["t5x/checkpoints.py:_BytesConditionVariable", "t5x/checkpoints.py:Checkpointer._write_state_to_tensorstore"]}
{"id": "C26", "title": "restore step/path selection", "statement": "restore rejects giving both a step and a path, loads the requested step when given, otherwise the latest step, and raises only when the directory holds no checkpoint.", "quantifier": "every argument combination and directory content", "why_tests_cant": "decision table over unbounded directory contents; the step-0 corner.", "anchors": ["t5x/checkpoints.py:Checkpointer.restore"]}
{"id": "C27", "title": "restore source precedence", "statement": "The first restore configuration that yields a checkpoint path wins, later ones are not consulted, the model directory takes precedence over the initial checkpoint, and in latest mode each directory contributes its latest step.", "quantifier": "every list of restore configurations and directory contents", "why_tests_cant": "combinatorial configuration space.", "anchors": ["t5x/utils.py:get_first_valid_restore_config_and_paths", "t5x/utils.py:TrainStateInitializer"]}
{"id": "C28", "title": "checkpoint key reader", "statement": "_read_msgpack_keys on the msgpack encoding of any nested string-keyed map returns the map's key tree.", "quantifier": "every nested map and leaf payload", "why_tests_cant": "recursive format, unbounded depth.", "anchors": ["t5x/checkpoint_utils.py:_read_msgpack_keys"]}
{"id": "C29", "title": "parameter files do not collide", "statement": "Two different parameters of one train state are written to different tensorstore paths, and reading resolves the path that writing used.", "quantifier": "every pair of parameter names", "why_tests_cant": "collisions exist only for particular name pairs.", "anchors": ["t5x/checkpoints.py:_get_spec", "t5x/checkpoints.py:_update_ts_path_from_relative_to_absolute"]}
{"id": "C30", "title": "training is resumable: splitting a run changes nothing", "statement": "Training n steps and then m steps (with a save and restore of the state between) yields the same state as training n+m steps on the same batch stream; exactly one batch is consumed per step and the per-step rng depends only on the base rng and the step number.", "quantifier": "every split of a run, every step function and batch stream", "why_tests_cant": "all splits and all models.", "anchors": ["t5x/trainer.py:BaseTrainer.train", "t5x/trainer.py:Trainer._partitioned_train_step", "t5x/trainer.py:BaseTrainer._get_step_rng"]}
{"id": "C31", "title": "microbatching covers the batch exactly", "statement": "accumulate_grads_microbatched with n microbatches uses each example exactly once and returns the same summed gradient, metrics and weight sum as one pass over the full batch when loss and metrics are sums over examples.", "quantifier": "every batch, every divisor n, every per-example loss", "why_tests_cant": "all batch sizes and divisors.", "anchors": ["t5x/trainer.py:accumulate_grads_microbatched"]}
{"id": "C32", "title": "metric merging is order independent", "statement": "Merging per-step metrics gives the same totals, averages and rates in whatever order and grouping the partial metrics are combined.", "quantifier": "every sequence of partial metrics and every merge tree", "why_tests_cant": "all groupings of unbounded sequences.", "anchors": ["t5x/metrics.py:Sum", "t5x/metrics.py:AveragePerStep", "t5x/metrics.py:StepsPerTime", "t5x/metrics.py:TimeRate", "t5x/trainer.py:merge_metrics"]}
{"id": "C33", "title": "early stopping decision", "statement": "For recorded values that are not NaN, EarlyStoppingAction requests a stop exactly when among the recorded values there have been `patience` consecutive ones none of which, from the second on, improved on its predecessor by more than the tolerance, and once requested keeps requesting whenever a value is recorded.", "quantifier": "every metric history, patience, tolerance and mode", "why_tests_cant": "history-dependent; all sequences.", "anchors": ["t5x/trainer.py:EarlyStoppingAction"]}
{"id": "C34", "title": "training loop runs and saves at the promised steps", "statement": "train() advances the step counter to total_steps without skipping or repeating a step, and the set of steps at which a checkpoint is saved is the start step, every multiple of the checkpoint period after it, every listed extra checkpoint step in range, and the final step.", "quantifier": "every total/period/eval/gc/stats configuration, start step and checkpoint_steps list", "why_tests_cant": "all configurations and unbounded run lengths; termination.", "anchors": ["t5x/train.py:train", "t5x/utils.py:find_next_checkpoint_step", "t5x/utils.py:find_first_checkpoint_step"]}
{"id": "C35", "title": "a stop request stops training", "statement": "Once any action asks to stop training, no further training step is executed beyond the current block.", "quantifier": "every set of actions, every answer history", "why_tests_cant": "depends on the interleaving of three action modes over the run.", "anchors": ["t5x/train.py:train", "t5x/train.py:run_actions"]}
{"id": "C36", "title": "batched sharded inference returns each example's own result", "statement": "For every non-empty dataset, every shard count and every batch size that it divides, inference with padding returns exactly one result per example, paired with that example's index, and padding never leaks into the result; after index sorting the output order is the dataset order.", "quantifier": "every dataset length, batch size, number of shards and per-example function", "why_tests_cant": "all combinations of sizes; padding arithmetic.", "anchors": ["t5x/utils.py:get_infer_fn", "t5x/utils.py:_remove_padding", "t5x/infer.py:_extract_tokens_and_aux_values"]}
{"id": "C37", "title": "inference restart produces the complete output", "statement": "For every crash history, when infer_task finally completes the output file contains each example's result exactly once in order.", "quantifier": "every number of chunks, every crash point, every number of restarts", "why_tests_cant": "all crash points and repeated restarts.", "anchors": ["t5x/infer.py:infer_task", "t5x/infer.py:merge_chunks_to_file"]}
{"id": "C38", "title": "write failures are reported", "statement": "FailFastThreadPoolExecutor surfaces an exception of any submitted task at a later submit or at shutdown and never loses one.", "quantifier": "every sequence of submitted tasks and completion order", "why_tests_cant": "schedules.", "anchors": ["t5x/infer.py:FailFastThreadPoolExecutor"]}
{"id": "C39", "title": "continuous evaluation evaluates every checkpoint once", "statement": "With mode 'all', restarting the evaluation job any number of times never re-evaluates a checkpoint already recorded as done, evaluates one twice only if the process died between its evaluation and its recording, goes in increasing step order within a run, and when a run finishes every checkpoint of the configured directory has been evaluated and recorded (of all directories, once something is recorded). Directory names contain no blanks and the process does not die while it writes the record.", "quantifier": "every set of checkpoints and crash history", "why_tests_cant": "all restart histories.", "anchors": ["t5x/eval.py:evaluate", "t5x/eval.py:_sorted_ckpt_paths", "t5x/eval.py:_load_evaluated_ckpt_paths"]}
{"id": "C40", "title": "device mesh is a permutation of the devices", "statement": "get_mesh places every device at exactly one mesh position and the mesh has model_parallel_submesh-sized model axis times the rest as data axis.", "quantifier": "every device bounds, host bounds and submesh dividing them", "why_tests_cant": "all topologies.", "anchors": ["t5x/partitioning.py:get_mesh", "t5x/partitioning.py:default_mesh"]}
{"id": "C41", "title": "local chunks tile the global array", "statement": "Over all hosts, the slices given by LocalChunker cover every element of the global array, two hosts' slices are equal or disjoint, and exactly one host with replica_id 0 owns each slice.", "quantifier": "every array shape, mesh and chunking where shapes divide", "why_tests_cant": "all shapes, meshes and axis assignments.", "anchors": ["t5x/partitioning.py:LocalChunker.get_local_chunk_info", "t5x/partitioning.py:LocalChunker.get_shard_id", "t5x/partitioning.py:LocalChunker.get_replica_id"]}
{"id": "C42", "title": "data shards partition the batch", "statement": "The data layout gives every host a shard id below the shard count, every shard id is held by some host, and shards divide the batch size evenly; the mixture-of-experts layout enumerates (data, expert) coordinates bijectively.", "quantifier": "every mesh and batch size", "why_tests_cant": "all topologies.", "anchors": ["t5x/partitioning.py:BasePartitioner.get_data_layout", "t5x/contrib/moe/partitioning.py:MoePjitPartitioner.get_data_layout"]}
{"id": "C43", "title": "expert mesh axis is the largest feasible divisor", "statement": "default_moe_mesh keeps all devices and chooses the expert axis as the largest divisor of the data axis not exceeding the requested number of expert partitions.", "quantifier": "every device count, model-parallel size and num_expert_partitions >= 1", "why_tests_cant": "all integers.", "anchors": ["t5x/contrib/moe/partitioning.py:default_moe_mesh"]}
{"id": "C44", "title": "learning-rate schedule shape", "statement": "With positive warm-up, decay and cycle lengths and a non-negative decay factor, the scheduler's value is never below min_learning_rate, is the product of the listed factors, the warm-up factor rises linearly to 1 and stays, rsqrt decay is continuous and non-increasing after warm-up, and unknown factors raise.", "quantifier": "every factor string, step and parameter values", "why_tests_cant": "real-valued, all steps.", "anchors": ["t5x/utils.py:create_learning_rate_scheduler"]}
{"id": "C45", "title": "vocabulary rounding", "statement": "round_vocab_size_to_multiple returns the least multiple of the divisor that is at least the vocabulary size.", "quantifier": "every size and positive divisor", "why_tests_cant": "all integers.", "anchors": ["t5x/utils.py:round_vocab_size_to_multiple"]}
{"id": "C46", "title": "optimizer state serialisation round trip", "statement": "OptaxWrapper.restore_state(state_dict(opt)) returns the original optimizer state, including empty states that state_dict drops, and raises when a non-empty entry is missing.", "quantifier": "every optimizer state tree", "why_tests_cant": "recursive trees with empty nodes.", "anchors": ["t5x/optimizers.py:OptaxWrapper.state_dict", "t5x/optimizers.py:OptaxWrapper.restore_state"]}
{"id": "C47", "title": "multi-optimizer updates each parameter by its own optimizer only", "statement": "With one set of hyper-parameters per optimizer, MultiOptimizer applies to each focused parameter exactly the update of the optimizer that owns it, leaves unowned parameters unchanged, rejects overlapping traversals and advances the step by one.", "quantifier": "every parameter set, traversal list and update rule", "why_tests_cant": "all overlaps of arbitrary predicates.", "anchors": ["t5x/optimizers.py:MultiOptimizer"]}
{"id": "C48", "title": "Adafactor accumulator shapes are stable", "statement": "The second-moment accumulators created for a parameter keep their shapes under every update sequence, factored accumulators multiply out to the parameter's shape, and a NaN-skipping update leaves the parameter unchanged.", "quantifier": "every parameter shape, factor rule and number of steps", "why_tests_cant": "all shapes and histories.", "anchors": ["t5x/adafactor.py:Adafactor.init_param_state", "t5x/adafactor.py:Adafactor.apply_param_gradient", "t5x/adafactor.py:Adafactor._parse_rule", "t5x/adafactor.py:Adafactor._factored_dims"]}
{"id": "C49", "title": "checkpoint translation is total and deterministic", "statement": "CheckpointTranslator maps every checkpoint variable by the first matching rule, drops exactly those whose rule says so, and raises if any variable is unmatched. The T5 rules send every variable of a Mesh TensorFlow checkpoint to its own T5X parameter or optimizer slot, no two to the same place; the post-processing completes the Adafactor slots and moves shared relative position biases without losing anything; strict import succeeds exactly if every imported variable exists with that shape. (That a target variable missing from the checkpoint is noticed, as documented, is false and refuted.)", "quantifier": "every variable set and rule list", "why_tests_cant": "all key sets.", "anchors": ["t5x/checkpoint_importer.py:CheckpointTranslator.apply", "t5x/checkpoint_importer.py:_update_state_dict"]}
{"id": "C50", "title": "named tree mapping touches exactly the matching leaves", "statement": "On trees of dicts with at least one leaf, tree_map_with_names and scale_sharded_grads apply the function exactly to leaves whose own path matches, and leave structure and all other leaves unchanged, even though names and values are flattened by different traversals.", "quantifier": "every nested dict tree, every name predicate", "why_tests_cant": "depends on two traversal orders agreeing for all trees.", "anchors": ["t5x/contrib/moe/training_utils.py:tree_map_with_names", "t5x/contrib/moe/training_utils.py:_tree_flatten_with_names"]}
{"id": "C51", "title": "gin flag rewriting", "statement": "rewrite_gin_args preserves argument order and count, changes only '--gin.' flags, keeps the whole value after the first '=' and rejects a gin flag without '='.", "quantifier": "every argument list", "why_tests_cant": "all strings.", "anchors": ["t5x/gin_utils.py:rewrite_gin_args"]}
{"id": "C52", "title": "train state split/restore", "statement": "Saving a train state to its dict form and restoring it into the same template returns the same state; changing the step via replace_step changes nothing else. create puts every collection of the model variables, unchanged, in exactly one of params, params axes, mutables and mutables axes, and rejects exactly those variables with axes that belong to no collection or do not name all of it. An inference state restored from a train state's dict has the same parameters, step and mutables.", "quantifier": "every train state", "why_tests_cant": "all trees of parameters and mutables.", "anchors": ["t5x/train_state.py:FlaxOptimTrainState", "t5x/train_state.py:InferenceState", "t5x/train_state.py:_split_variables_and_axes"]}
{"id": "C53", "title": "sharing decoder parameters between prediction calls", "statement": "Calls of predict_batch_with_aux by one model that share a decoder_params object and pass no rng behave as independent calls. A call with an rng uses that rng; afterwards a call with an rng is refused and one without an rng reuses the earlier one. Values left in the object also reach other models.", "quantifier": "every sequence of prediction calls sharing a params object", "why_tests_cant": "requires reasoning over call histories.", "anchors": ["t5x/models.py:EncoderDecoderModel.predict_batch_with_aux", "t5x/models.py:DecoderOnlyModel.predict_batch_with_aux"]}
{"id": "C54", "title": "packed examples do not influence each other", "statement": "In the encoder-decoder network with packed inputs, what is computed at the real target positions of an example with at least one input token does not change when the other examples packed into the same row are replaced by anything else.", "quantifier": "every number of layers, every layer function that respects its attention mask, every packing", "why_tests_cant": "quantifies over all other examples and all model depths; leaks appear only in rows whose mask is empty.", "anchors": ["t5x/examples/t5/network.py:Transformer.encode", "t5x/examples/t5/network.py:Transformer.decode", "t5x/examples/t5/layers.py:make_attention_mask"]}
{"id": "C55", "title": "beam search scores are those of the returned sequences", "statement": "Every finished sequence that beam search keeps is the prompt, a continuation without EOS, one EOS and padding, and its score is the log-probability the model gives to exactly that continuation when it is fed that sequence alone, divided by the brevity penalty of its length; the cache of every live beam is the one its own tokens produce.", "quantifier": "every decoder with log-probabilities <= 0, every prompt without EOS, every number of beams and of steps", "why_tests_cant": "an error in the reordering of beams or caches shows only for decoders that react to it, and for beams that change places.", "anchors": ["t5x/decoding.py:beam_search", "t5x/decoding.py:cache_gather_beams", "t5x/decoding.py:gather_topk_beams"]}
{"id": "C56", "title": "beam search returns different sequences", "statement": "The finished sequences that beam search keeps for a row are pairwise different, and so are its live beams.", "quantifier": "every decoder with log-probabilities <= 0, every prompt without EOS, every number of beams and of steps", "why_tests_cant": "duplicates come from the interplay of forced prompts, ties and merged candidate lists.", "anchors": ["t5x/decoding.py:beam_search"]}
{"id": "C57", "title": "interrupted training equals uninterrupted training", "statement": "A training job that crashes or is preempted any number of times at any point and restarts from its latest checkpoint (state and data set position) is, whenever its step number is n, in exactly the state of an uninterrupted job at step n.", "quantifier": "every step function, data set, sequence of training blocks, saves and restarts", "why_tests_cant": "a test can try one crash point; the property is about every interleaving of saves and crashes.", "anchors": ["t5x/train.py:train", "t5x/checkpoints.py:Checkpointer.save", "t5x/checkpoints.py:Checkpointer.restore"]}
{"id": "C58", "title": "checkpoints never lie about the step", "statement": "In every run of train(), however it ends, the executed training steps are first, first+1, ... without gap or repetition; a checkpoint of step s is written only when exactly the steps below s have been executed; and when training is preempted with checkpointing on, the last action before the exception propagates is to save everything trained so far.", "quantifier": "every configuration, every answer of the actions, every preemption pattern", "why_tests_cant": "the claim covers all interleavings of periods, extra steps, stop requests, preemptions and errors.", "anchors": ["t5x/train.py:train", "t5x/utils.py:find_next_checkpoint_step", "t5x/trainer.py:BaseTrainer.train"]}
{"id": "C59", "title": "Adafactor steps pair every parameter with its own state and gradient, and clip by the global norm", "statement": "Adafactor.apply_gradient updates every parameter from the state and the gradient at the same path, whatever the order of the three dicts; it raises KeyError if one is missing and succeeds exactly if all single updates do. A positive global_norm_clip_threshold multiplies all gradients by one factor in (0,1] that brings the global norm to min(threshold, norm); otherwise gradients are unchanged. The result has exactly the parameters' paths and the step advances by one. init_state gives step 0 and one state per parameter.", "quantifier": "all nested parameter trees, all gradients over the reals, any per-parameter update, any threshold (none, zero, negative, positive)", "why_tests_cant": "tests use one or two flat trees in one order and one threshold.", "anchors": ["t5x/adafactor.py:Adafactor.apply_gradient", "t5x/adafactor.py:Adafactor.init_state", "t5x/adafactor.py:_restore"]}
{"id": "C60", "title": "incremental decoding equals the whole-sequence forward pass", "statement": "Feeding the tokens of a sequence one at a time to the T5 decoder with its key/value cache gives, at every position up to which the targets contain no padding, exactly the logits that the forward pass over the whole sequence (training, scoring) computes there. So the model that samples is the model that was trained and that scores.", "quantifier": "every number of layers, heads and dimensions, all weights, every encoder input, every sequence no longer than the cache", "why_tests_cant": "tests compare a few positions of one tiny network with tolerances; the claim needs the cache invariant for every layer and every step.", "anchors": ["t5x/examples/t5/layers.py:MultiHeadDotProductAttention.__call__", "t5x/examples/t5/network.py:Transformer.decode", "t5x/examples/t5/network.py:DecoderLayer", "t5x/models.py:EncoderDecoderModel._compute_logits_from_slice"]}
{"id": "C61", "title": "prefilling the cache with the prompt does not change the logits", "statement": "A decoder-only model that prefills its cache with a prompt, with or without bidirectional attention over the prompt, starts decoding at the index of the last prompt token, sees no target token of the batch, and computes from there on exactly the logits of the forward pass over prompt and generated tokens with the prefix attention mask.", "quantifier": "every number of layers, heads and dimensions, all weights, every prompt without padding, every continuation", "why_tests_cant": "the prompt's last token is computed twice and cached once, and the bidirectional mask must agree in three places; a test sees one prompt length at a time.", "anchors": ["t5x/models.py:DecoderOnlyModel._compute_kv_cache", "t5x/models.py:DecoderOnlyModel.predict_batch_with_aux", "t5x/examples/decoder_only/layers.py:MultiHeadDotProductAttention.update_cache_prefill", "t5x/examples/decoder_only/layers.py:MultiHeadDotProductAttention.update_cache_decode"]}
{"id": "C62", "title": "the score returned with a sample is the model's score of that sample", "statement": "With rescale_log_probs=False, the log-probability that temperature_sample returns with a sequence equals what score_batch computes for that sequence (teacher-forced forward pass, cross entropy, weights on the non-padding positions after the prompt), for encoder-decoder models and for decoder-only models with a prefilled prompt, provided padding is not sampled before the end marker.", "quantifier": "all weights, network sizes, batches, prompts, length limits, and every way of choosing tokens from the logits (temperature, top-k, top-p, greedy)", "why_tests_cant": "it joins the sampling loop, the cache, the prefill, the masks and the loss; tests compare each with golden values for one tiny model.", "anchors": ["t5x/decoding.py:temperature_sample", "t5x/models.py:EncoderDecoderModel.predict_batch_with_aux", "t5x/models.py:EncoderDecoderModel.score_batch", "t5x/models.py:DecoderOnlyModel.predict_batch_with_aux", "t5x/models.py:DecoderOnlyModel.score_batch"]}
{"id": "C63", "title": "the score returned by beam search is the model's score of the returned sequence", "statement": "predict_batch with beam search returns, for every row, a sequence that keeps its prompt together with a score that score_batch would give to that sequence (teacher-forced forward pass, cross entropy over the tokens after the prompt): divided by the brevity penalty of the sequence's length if it ends in EOS, undivided if no beam finished and the best live beam is returned. For decoder-only models the prefilled prompt is put back in front of the tokens found.", "quantifier": "all weights, network sizes, beam widths, batches, prompts, iteration counts and brevity exponents; rows with a reported score above that of an empty slot, no padding generated; decoder-only rows whose prompt is the shortest of the batch", "why_tests_cant": "it joins the beam bookkeeping (gathering caches across beams at every step), the cache, the prefill, the right/left alignment and the loss; a test compares one toy model with golden sequences.", "anchors": ["t5x/decoding.py:beam_search", "t5x/models.py:EncoderDecoderModel.predict_batch_with_aux", "t5x/models.py:DecoderOnlyModel.predict_batch_with_aux", "t5x/models.py:EncoderDecoderModel.score_batch", "t5x/models.py:DecoderOnlyModel.score_batch"]}
{"id": "C64", "title": "a saved train state is restored as it was", "statement": "Saving a train state and restoring it, with the same or another Checkpointer for a model of the same shapes, gives back the same nested state: every entry, None and empty dict included, every optimizer state leaf unchanged, every parameter cast to save_dtype and then to restore_dtype; regardless of which leaves were partitioned when saving (own tensorstore file) or not (msgpack file), of whether more of them are partitioned when restoring, of the order in which files are written, of earlier saves by the same checkpointer, and of where the checkpoint has been moved (local directory, bucket). For an arbitrary checkpoint, a successful restore has taken every parameter from the checkpoint, and partitioned ones only with the expected shape.", "quantifier": "all nested states, shapes, dtypes, casts, partitionings, directories, write orders; keys without '/' and '.', no partitioned uint16 array, save_dtype given if parameters are unpartitioned", "why_tests_cant": "a test saves one or two small states in one layout; the claim composes naming, spec rewriting, casting in four places, two storage formats and tree matching.", "anchors": ["t5x/checkpoints.py:Checkpointer.save", "t5x/checkpoints.py:Checkpointer._write_state_to_tensorstore", "t5x/checkpoints.py:Checkpointer.restore", "t5x/checkpoints.py:Checkpointer._read_state_from_tensorstore", "t5x/checkpoints.py:_read_ts", "t5x/checkpoints.py:Checkpointer._get_parameter_infos"]}
{"id": "C65", "title": "early exit decoding takes the first exit at which every example is confident", "statement": "In early exit (CALM) decoding every call of the model ends at the first exit point that is not before min_exit and at which every example of the batch reaches the confidence threshold, or at the last layer; it returns the logits of that layer, reports that layer and its confidences, and leaves the caches of the layers run as the whole model would. If no example is ever confident (in particular with a softmax confidence and the default threshold 1, or min_exit equal to the number of layers) logits and caches are those of the whole model. With the token oracle the predicted token is that of the whole model. Sampled sequences are those of the ordinary sampler with these logits, and the returned tables hold the exit layer and the confidence of every step.", "quantifier": "all layer functions, caches, confidence functions, numbers of layers, first exits, intervals and thresholds, with min_exit and first_exit within the layers; tables: decoding from scratch", "why_tests_cant": "the exit depends on data; segment boundaries, counters and switch indices have to agree for every combination of settings.", "anchors": ["t5x/contrib/calm/models.py:EncoderDecoderModel._compute_logits_from_slice_early_exit", "t5x/contrib/calm/models.py:EncoderDecoderModel.get_pred_confidence", "t5x/contrib/calm/decoding.py:_temperature_sample_single_trial"]}
{"id": "C66", "title": "after an early exit the skipped layers see the state of the last layer run", "statement": "When a token exits early, the caches of the skipped layers are updated from the hidden state of the last layer that was run; with oracle_cache they are updated as the whole model would.", "quantifier": "all layer functions, caches, settings and exits", "why_tests_cant": "a wrong hidden state only changes later tokens slightly; no crash and no shape error shows it.", "anchors": ["t5x/contrib/calm/models.py:EncoderDecoderModel._compute_logits_from_slice_early_exit"]}
{"id": "C67", "title": "an exported encoder-decoder model computes the features of every request row exactly", "statement": "The preprocessor of an exported model gives, for every batch of tokenized texts, arrays whose width is the smallest permitted one that holds all rows; every row shows the tokens cut to the feature length (EOS last, if the feature adds it) followed by padding; loss weights are 1 exactly on non-padding; decoder inputs are the targets shifted right wherever the loss counts. Batching and length buckets only change the amount of padding. A text is split into input and target at the first separator. Buckets whose largest entry is not the feature length are refused.", "quantifier": "all batches, tokens, feature lengths, bucket lists (in any order) and EOS settings", "why_tests_cant": "tests fix one batch and one set of buckets; the claim relates every batch composition to every bucketing.", "anchors": ["t5x/export_lib.py:create_preprocessor", "t5x/export_lib.py:truncate_and_pad_tokenized_input", "t5x/export_lib.py:bucketize_tokenized_input"]}
{"id": "C68", "title": "an exported decoder-only model sees exactly the prompt of the request", "statement": "For every request the prompt an exported decoder-only model attends to in both directions is the begin token followed by exactly the tokens of the request row without padding, as far as they fit; no prompt position counts for the loss. With the feature 'targets' there is no prompt and exactly the tokens count.", "quantifier": "all batches, tokens, lengths, EOS settings and features", "why_tests_cant": "the mask, the width and the loss weights are computed from three different arrays; tests use one batch of equal rows.", "anchors": ["t5x/export_lib.py:create_decoder_preprocessor"]}
{"id": "C69", "title": "token counts, warmup examples, decoder parameters and named outputs of exported models are right", "statement": "num_tokens_before_eos is the position of the first EOS (all tokens if there is none). A generated warmup example has exactly the wanted number of tokens, and is found if any part of the random tokens not reaching their end encodes to that number. A warmup batch is repeated or cut to the batch size. The trailing arguments become the decoder parameters in the order of their specification, the others reach the preprocessor. Outputs are named in order.", "quantifier": "all token rows, vocabularies, lengths, batches, numbers of parameters (at least one) and outputs", "why_tests_cant": "slices with negative bounds and cycles have edge cases that examples with one size miss.", "anchors": ["t5x/export_lib.py:create_postprocessor", "t5x/export_lib.py:generate_examples_with_sequence_lengths", "t5x/export_lib.py:_request_for_batch", "t5x/export_lib.py:create_preprocessor_with_decoder_params", "t5x/export_lib.py:_maybe_name_outputs"]}
{"id": "C70", "title": "the interactive train loop trains on the given batches for the given number of steps", "statement": "InteractiveModel.train_loop trains num_steps steps, step k on batch k modulo the number of batches, and fails only if a step fails. It returns predictions, scores and metrics for the last batch given, computed with the state after the last step whose number is a multiple of eval_period. This holds for lists of batches whose number divides num_steps or is at least num_steps, and for a single train batch of dicts.", "quantifier": "all numbers of steps, periods, batches and models", "why_tests_cant": "the number of steps done is not observable from the result; tests use one batch or exact multiples.", "anchors": ["t5x/interactive_model.py:InteractiveModel.train_loop", "t5x/interactive_model.py:_get_equal_length_batches"]}
{"id": "C71", "title": "interactive batches and inferences cover every example once and in order", "statement": "get_batches_from_seqio returns the first examples of the dataset in order, in exactly num_batches batches of batch_size, and fails if there are too few. infer_with_preprocessors returns one entry per example, in order, with the predictions of its batch computed with the random key of the batch number, and the auxiliary values of all batches joined in order; for a model that treats examples independently the result does not depend on the batch size.", "quantifier": "all datasets, batch sizes, numbers of batches, inference functions and auxiliary values", "why_tests_cant": "off-by-one errors at the last incomplete batch appear for some sizes only.", "anchors": ["t5x/interactive_model.py:get_batches_from_seqio", "t5x/interactive_model.py:InteractiveModel.infer_with_preprocessors"]}
{"id": "C72", "title": "restoring a checkpoint of another model takes what both have from the checkpoint and the rest from the fallback state", "statement": "Checkpointer.restore with a fallback_state returns exactly the entries of the model. An entry that the checkpoint (after the state transformations) also has is the stored array, parameters cast to restore_dtype; any other entry is the fallback's, unchanged; extra entries of the checkpoint are ignored. It succeeds whenever the common entries can be read and, if restore_dtype is given, one of them is a parameter. In particular a state saved by one model and restored into another keeps every array both have, wherever the files have been moved to.", "quantifier": "all models, checkpoints, state transformations, fallback states, dtypes, partitionings and directories", "why_tests_cant": "two trees of different shape are intersected, read and merged by path; a test has one pair of models, and a wrong precedence between checkpoint and fallback is invisible if their values agree.", "anchors": ["t5x/checkpoints.py:Checkpointer.restore", "t5x/checkpoints.py:Checkpointer._read_state_from_tensorstore", "t5x/checkpoints.py:_get_optimizer_state_dict", "t5x/state_utils.py:intersect_state", "t5x/state_utils.py:merge_state"]}
{"id": "C73", "title": "sparse upcycling gives every expert the dense weights", "statement": "Reading a dense checkpoint with the upcycling checkpointer: a partitioned expert parameter whose stored shape is the model's without the expert dimension becomes num_experts copies of the stored array, of the model's shape if num_experts is the model's; a parameter outside the experts, and m and v states, are read unchanged and only with the model's shape. This holds if the host holds the whole array apart from the expert dimension.", "quantifier": "all names, shapes, arrays, numbers of experts and local chunks", "why_tests_cant": "the name test, the shape test, the slice and the broadcast are applied to arrays of any rank; the multi-host case needs several hosts.", "anchors": ["t5x/contrib/moe/checkpoints.py:_read_upcycle_ts"]}
{"id": "C74", "title": "the logical axes of an optax state follow the parameters", "statement": "OptaxWrapper.derive_logical_axes succeeds for every state composed, to any depth, of the supported optax transformations (chained, masked, accumulated, with injected hyper-parameters, per label), and returns axes with exactly the structure of the state: an array that belongs to a parameter has that parameter's axes, every other array has None, a masked parameter has no axes. A state of an unregistered class makes it fail instead of being replicated silently.", "quantifier": "all compositions of transformations, parameter trees, axes and masks", "why_tests_cant": "the rules recurse through arbitrary nestings of states; a wrong rule for one field or one level shows only with that composition, and wrong axes make the partitioner replicate or split an array wrongly without an error.", "anchors": ["t5x/optimizers.py:OptaxStatePartitionRules", "t5x/optimizers.py:OptaxWrapper.derive_logical_axes"]}
{"id": "C75", "title": "logical axis rules give every array a valid partition, in the order of the rules", "statement": "get_mesh_axes gives every array of the state whose logical names are distinct one entry per dimension; no mesh axis is used for two dimensions; a dimension is split only as a rule for its name says; a rule is followed unless an earlier rule for that name was, or another dimension took one of its mesh axes by an earlier rule. With the standard rules the batch is split over the data axis; one of vocab, mlp, heads and joined_kv over the model axis; embed as the partitioning dims say. The data axis of the partitioner is that of the rule for batch.", "quantifier": "all rule lists, all arrays of logical names, all partitioning dims, all states", "why_tests_cant": "the assignment depends on the order of all rules and on all names of an array; a wrong one still runs, only slower or with more memory.", "anchors": ["t5x/partitioning.py:standard_logical_axis_rules", "t5x/partitioning.py:PjitPartitioner.get_mesh_axes", "t5x/partitioning.py:BasePjitPartitioner.data_partition_spec", "t5x/contrib/moe/partitioning.py:standard_logical_axis_rules"]}
{"id": "C76", "title": "axis name overrides apply to exactly the parameters they match", "statement": "override_params_axes_names gives a parameter the names of the first pattern that fully matches its name; a parameter without a match, or whose first match has the value None, keeps its names, and no other entry changes. It fails exactly if some override has another number of names than its parameter has dimensions.", "quantifier": "all parameter trees, axes trees and sequences of patterns", "why_tests_cant": "precedence between overlapping patterns and the rewriting of nested paths hold for every tree only by proof.", "anchors": ["t5x/utils.py:override_params_axes_names", "t5x/utils.py:_RegexMap"]}
{"id": "C77", "title": "the metrics reported for a period are the right ratios of totals over all its microbatches, steps and hosts", "statement": "However the dicts of compute_base_metrics of the microbatches and steps are merged, the summary reports: accuracy = right predictions (argmax, first of equal) among positions with non-zero weight / such positions; loss = total loss / steps; loss per weight and per target token; sequences and tokens per second and per core; steps per second; z-loss and cross entropy (loss minus z-loss) per step and per token; for every feature with segment ids the packed sequences per step and the fraction that is not padding, also over all features. For a batch without segment ids the effective batch size counts the rows holding any token.", "quantifier": "all batches, logits, targets, weights, segment ids, all groupings into pieces, all numbers of steps and devices", "why_tests_cant": "the values are ratios of sums merged in an order chosen by the runtime; tests merge two pieces of one shape.", "anchors": ["t5x/models.py:compute_base_metrics", "t5x/models.py:BaseTransformerModel.loss_fn", "t5x/models.py:count_packed_examples", "t5x/metrics.py"]}
{"id": "C78", "title": "the loss of a mixture-of-experts model is the cross entropy plus the averaged expert losses", "statement": "_moe_loss_fn returns the weighted cross entropy plus auxiliary_loss_factor times the load balancing loss plus router_z_loss_factor times the router z-loss, both averaged over the layers that sow them; it fails exactly if one of the five router metrics is sown by no layer. The reported cross_ent_loss is free of expert losses and z-loss, the reported loss contains them.", "quantifier": "all states, numbers of layers, values, factors, batches and groupings of pieces", "why_tests_cant": "the sown values are found by the last component of their path in a state of any shape; a wrong average is invisible with one layer.", "anchors": ["t5x/contrib/moe/models.py:_moe_loss_fn", "t5x/contrib/moe/models.py:_extract_diversity_metrics", "t5x/contrib/moe/models.py:_expert_losses", "t5x/contrib/moe/models.py:_expert_metrics"]}
{"id": "C79", "title": "the devices of all hosts hold one global batch made of exactly the hosts' examples", "statement": "If every host passes the batch of the shard its data layout assigns, _create_sharded_array succeeds on every host and the buffers of all devices are the blocks of one global batch of batch_size rows: no example is lost or repeated, replicas of a block agree, features stay aligned, and with one data axis the shards follow each other in order of shard id.", "quantifier": "all meshes whose hosts own equal boxes of devices, all data axes, batch sizes, batches and features, also for the mixture-of-experts partitioner", "why_tests_cant": "needs many hosts; tests mock a single process or a fixed index map.", "anchors": ["t5x/utils.py:_create_sharded_array", "t5x/utils.py:_get_index_mappings", "t5x/utils.py:ShardedDatasetIterator", "t5x/partitioning.py:BasePartitioner.get_data_layout"]}
{"id": "C80", "title": "training summaries are written in order, each once, with the duration of its own period", "statement": "Under every schedule of the main thread, the timer thread and the summary thread: the summaries written are those of the write_metrics_summary calls in order, each once, with their step and num_steps, and the duration of each runs from a moment when the value of its own start_duration_timer was ready to a moment when its metrics were ready; periods do not overlap, durations are not negative and add up to at most the time passed. flush returns only after all earlier summaries are written. No deadlock: when the devices are ready all summaries get written. The ValueError is raised exactly for a summary without a start of its own.", "quantifier": "all sequences of calls, all interleavings of the threads, all device timings", "why_tests_cant": "depends on the scheduling of three threads and on device timing; a test sees a few schedules with a mocked clock.", "anchors": ["t5x/trainer.py:_AsyncTimer", "t5x/trainer.py:MetricsManager.write_metrics_summary", "t5x/trainer.py:MetricsManager.flush", "t5x/trainer.py:MetricsManager.start_duration_timer"]}
{"id": "C81", "title": "the partitioning of the Adafactor state follows the parameters, also for experts", "statement": "derive_logical_axes gives v and m the axes of their parameter whenever they have its shape, replicates factored accumulators and placeholders, and never gives an array axes that do not fit it. For mixture-of-experts models, get_logical_axes adds the axis expert exactly to v_row and v_col of expert kernels, exactly when the optimizer (or every part of a MultiOptimizer) is a factored Adafactor; with rules that treat expert as BATCH this splits the dimension of the experts. Data specs are overridden exactly where data was split along data alone.", "quantifier": "all parameter names, shapes, axis names, factor rules and optimizer definitions", "why_tests_cant": "depends on a regular expression on path names and on which dimensions factoring removes, for any shape; tests use one toy state.", "anchors": ["t5x/adafactor.py:Adafactor.derive_logical_axes", "t5x/adafactor.py:Adafactor.set_param_axes", "t5x/contrib/moe/partitioning.py:MoePjitPartitioner.get_logical_axes", "t5x/contrib/moe/partitioning.py:_infer_state_filter_fn", "t5x/contrib/moe/partitioning.py:override_partition_specs", "t5x/contrib/moe/partitioning.py:compute_num_model_partitions"]}
{"id": "C82", "title": "the hosts evaluate exactly the same examples as a single host would, each once", "statement": "For seqio tasks and mixtures get_training_eval_datasets deals the examples of every task out to the data shards so that in every step the shards together hold exactly the next batch_size examples of the one data set; over eval_steps steps exactly the first eval_steps * batch_size examples, each once, when there are so many. All hosts deal from the same examples whatever their clocks say, since without a seed the time of host 0 is used; hosts with different seeds fail. Datasets are loaded for exactly the subtasks that have the split and for the mixture. get_dataset gives every shard batch_size / num_shards rows and one seed for all hosts, or fails.", "quantifier": "all data sets, batch sizes, numbers of shards, steps, hosts and clocks", "why_tests_cant": "needs many hosts; a wrong offset or an unshared seed gives metrics that look plausible but count examples twice or never.", "anchors": ["t5x/utils.py:get_training_eval_datasets", "t5x/utils.py:get_dataset", "t5x/utils.py:get_dataset_inner"]}
{"id": "C83", "title": "a task is accepted only with the vocabularies of the model", "statement": "verify_matching_vocabs passes exactly if the features inputs and targets have the input and output vocabulary of the model; or, for a task that lacks one of them, if the model has a single vocabulary and every tokenized feature (every feature, if none is tokenized) has that one.", "quantifier": "all sets of features and vocabularies", "why_tests_cant": "the choice among features depends on which of them are present and tokenized; a wrong acceptance trains on meaningless token ids without an error.", "anchors": ["t5x/utils.py:get_vocabulary", "t5x/utils.py:verify_matching_vocabs"]}
{"id": "C84", "title": "line i of the inference output is about example i", "statement": "write_inferences_to_file writes one line per example in order; line i has exactly the requested input fields of example i, the decoded prediction or score of example i, its token ids up to the first padding token, and its auxiliary values. It fails exactly if the options contradict each other, a prediction or value is missing or cannot be converted. Together with sharded batched inference, line i has the prediction for example i for every number of shards and batch size. The file reads back as exactly these lines.", "quantifier": "all data sets, predictions, auxiliary values, options, numbers of shards and batch sizes", "why_tests_cant": "a misalignment shows only for particular sizes, and then silently attaches predictions to other inputs.", "anchors": ["t5x/infer.py:write_inferences_to_file", "t5x/infer.py:_extract_tokens_and_aux_values", "t5x/utils.py:get_infer_fn"]}
{"id": "C85", "title": "evaluation during training covers every batch on all hosts or fails", "statement": "BaseTrainer.eval: if all hosts have equally many batches of a data set, every host gets the metrics merged over all global batches and their number; if not, some host raises the mismatch error. A host that gets a summary has exactly as many batches as host 0 and no host has fewer. All hosts return exactly if every data set has a metrics manager and equally many batches on all hosts, and then all return the same. Compiling ahead with compile_eval changes no result, and compiles exactly once for each combination of shapes and types.", "quantifier": "all numbers of hosts, data sets, batches per host, steps and merge functions, all sequences of compile_eval calls", "why_tests_cant": "needs hosts with different numbers of batches; one process sees neither the mismatch nor the collective operations.", "anchors": ["t5x/trainer.py:BaseTrainer.eval", "t5x/trainer.py:BaseTrainer.compile_eval"]}
{"id": "C86", "title": "the metrics about weights are what their names say", "statement": "compute_metrics gives for every parameter exactly weight_rms, weight_gradient_rms, weight_update_rms, weight_update_divided_by_weight_rms and weight_max, each of the array its name says, and one weight_gradient_norm; none overwrites another. They fit together: the squared gradient norm is the sum of the squared gradient RMS values times the sizes, RMS never exceeds the maximum, weight_rms changes between steps by at most weight_update_rms, and that is zero exactly if the parameter did not change.", "quantifier": "all trees of parameters, gradients and updates, over the reals", "why_tests_cant": "identities over all real arrays; a swapped argument (old for new weights) gives plausible numbers.", "anchors": ["t5x/trainer.py:WeightMetricsComputer.compute_metrics", "t5x/trainer.py:WeightMetricsComputer._make_rms_metrics", "t5x/trainer.py:WeightMetricsComputer._make_max_metrics"]}
{"id": "C87", "title": "loading a checkpoint without a model gives the saved state", "statement": "load_t5x_checkpoint on what Checkpointer.save has written, from wherever the files have been moved to and in whatever order the arrays were written, gives the saved tree with every leaf as saved; with restore_dtype every array (not only the target parameters) has that dtype. A lazily loaded checkpoint, fetched later, is the same. A state with an empty dict cannot be loaded this way. Versions below 2 are refused when remapping; without remapping a file without version is the state itself; transformation functions are applied in order.", "quantifier": "all state trees with keys free of '/' and '.', all partitionings, save and restore dtypes, directories, orders of writing, files and transformations", "why_tests_cant": "ranges over all trees and directories; the functions are tested on one small checkpoint.", "anchors": ["t5x/checkpoints.py:load_t5x_checkpoint", "t5x/checkpoints.py:fake_param_info", "t5x/checkpoints.py:_get_optimizer_state_dict", "t5x/checkpoint_importer.py:LazyAwaitableArray"]}
{"id": "C88", "title": "saving and restoring with Orbax gives back the state", "statement": "Whatever OrbaxCheckpointManagerInterface.save is given as save_dtype, the state is stored as it is. restore into a train state gives exactly the entries of that train state: a stored array comes back as stored, cast to the restore dtype if it is a target parameter or has no partition spec; an entry that is not stored comes from the fallback state; without fallback state every entry has to be stored. Restoring succeeds whenever there is a fallback state or everything is stored, whatever else is stored, provided the train state has no empty dict.", "quantifier": "all train states with keys free of '/' and '.', partitionings, dtypes, stored states and fallback states", "why_tests_cant": "ranges over all trees and all combinations of stored, missing and extra entries; tests use one small tree.", "anchors": ["t5x/checkpoints.py:OrbaxCheckpointManagerInterface.save", "t5x/checkpoints.py:OrbaxCheckpointManagerInterface.restore", "t5x/checkpoints.py:_construct_save_args", "t5x/checkpoints.py:_construct_restore_args", "t5x/checkpoints.py:_construct_orbax_param_infos", "t5x/checkpoints.py:_construct_orbax_restoration_transforms"]}
{"id": "C89", "title": "the beam dimension keeps the caches and results of every beam and example together", "statement": "Flattening puts beam e of batch row b at row b*beam+e for arrays of any rank, with or without a leading dimension of scanned layers, and unflattening is its inverse; expanding puts copies of row b there. beam_init gives every beam the cache of its row; the model is called with the flattened cache; after a step the cache of every beam is what the model made of the cache of the beam that it continues, whether gathered by one-hot contraction or by indexing, if the values are finite; entries without a batch dimension (cached_bias, position_embedder_index, and cache_index unless it is expanded) stay as they are. With several samples per example, the rows decoded for an example are copies of its inputs, cache and initial index, and its results are those of its rows.", "quantifier": "all caches, ranks and sizes, batch and beam sizes, beam indices, offsets 0 and 1", "why_tests_cant": "ranges over all shapes and selections of beams; tests use a few fixed arrays.", "anchors": ["t5x/decoding.py:cache_map", "t5x/decoding.py:add_beam_dim", "t5x/decoding.py:flatten_beam_dim", "t5x/decoding.py:unflatten_beam_dim", "t5x/decoding.py:flat_batch_beam_expand", "t5x/decoding.py:cache_gather_beams", "t5x/decoding.py:gather_beams", "t5x/decoding.py:beam_init"]}
{"id": "C90", "title": "the losses of CALM weigh layers and positions as intended", "statement": "The loss for anytime predictions is the average of the losses of the layers with weights 1, 2, 4, ... (aggregation_weights=-1) or 1, 1+a, 1+2a, ... (a >= 0), so it lies between the smallest and the largest loss of a layer and equals the loss of the ordinary model if all layers agree. The loss of the early exit classifier is the average, over all layers but the last, of the cross entropy of 'predicts the same as the last layer'; with weights zero and one the positions where the layer agrees weigh together as much as those where it does not, and padding nothing. The geometric-like loss is minus the log-probability of exiting at the first layer that agrees, given that one exits at all, plus the z-loss.", "quantifier": "all logits and predictions, numbers of layers and positions, weights, label smoothing and z-loss factors", "why_tests_cant": "ranges over all real logits and all numbers of layers; there are no tests of the aggregation.", "anchors": ["t5x/contrib/calm/models.py:EncoderDecoderModel.loss_fn", "t5x/contrib/calm/models.py:EncoderDecoderModel.loss_fn_meta_cls", "t5x/contrib/calm/models.py:EncoderDecoderModel.loss_fn_meta_cls_geom_like"]}
{"id": "C91", "title": "an Adafactor step has the promised direction and size, and factoring loses only what it says", "statement": "From step_offset on the decay of the second moments is in [0, 1), is 0 at step_offset (so that older second moments have no influence on that step or later) and grows. After any number of steps the accumulators are the exponential moving averages of the squared gradients plus epsilon1, and those of a factored parameter exactly the means of these over the columns and over the rows. A step divides the gradient by the root of the estimated second moment; for a matrix the estimate has the true row and column means and is exact for rank one. Without momentum and weight decay every element moves against its gradient, and the root mean square of the change is at most clipping_threshold times learning rate times parameter scale, for every member of a batched parameter; with momentum such a bound is kept.", "quantifier": "all shapes, factorization rules, parameters, gradients, hyper parameters with epsilon1 > 0 and decay_rate > 0, and numbers of steps", "why_tests_cant": "ranges over all real gradients and histories; tests compare a few steps with stored numbers.", "anchors": ["t5x/adafactor.py:Adafactor.apply_param_gradient", "t5x/adafactor.py:Adafactor._decay_rate_pow"]}
{"id": "C92", "title": "sampling draws from the top k or the nucleus, with the example's temperature and the reported log-probability", "statement": "Generated tokens are chosen from the logits the model gives after the preceding tokens. At a temperature of at most 1e-4 the choice is the first most likely token, whatever topk, topp and the rng are. Otherwise, if the best scaled logit is above -1e7 by more than the spread of the random numbers, fewer than topk tokens are more likely than the chosen one, and those have less than the share topp of what temperature and top-k leave; with topk=1 and no ties the choice is the best token. The reported log-probability is that under the logits, or with rescale_log_probs the chosen token's share of the remaining weights, and is summed over the generated tokens up to the end marker. topk and topp both non-zero are rejected unless traced. (With an array of temperatures all decodes of an example are drawn with the same random numbers, hence equal.)", "quantifier": "all models (functions of cache and token), logits, temperatures (one or per example), topk, topp, random numbers, prompts, numbers of decodes", "why_tests_cant": "ranges over all logits and all outcomes of the random draws; tests fix the logits and the rng.", "anchors": ["t5x/decoding.py:temperature_sample", "t5x/decoding.py:_temperature_sample_single_trial", "t5x/binary_search.py:topp_mask"]}
{"id": "C93", "title": "the logits of an example do not depend on its row: padding, packing and position", "statement": "For the T5 network of examples/t5: two rows of any lengths that hold the same example, padded to different lengths, alone or packed with others, with or without segment ids, and at different positions of the row, give exactly the same logits at every target token; changing later inputs and targets or other packed examples changes nothing. This needs a non-padding encoder token and parameters that are not absurdly large: layer norms bound the attention logits by the parameters alone, so that a masked key has weight exactly 0. A query whose keys are all masked attends as if there were no mask.", "quantifier": "all parameters with logit bound B, 2B+104 <= 1e10 (for float32), all numbers of layers, heads, features, all row lengths, tokens and segment ids", "why_tests_cant": "ranges over all parameters and rows; tests compare a few packed rows of a random model within a tolerance.", "anchors": ["t5x/examples/t5/network.py:Transformer", "t5x/examples/t5/network.py:Encoder", "t5x/examples/t5/network.py:Decoder", "t5x/examples/t5/layers.py:MultiHeadDotProductAttention", "t5x/examples/t5/layers.py:LayerNorm"]}
{"id": "C94", "title": "the whole T5 network decodes with the logits it is trained and scored with", "statement": "For the T5 network of examples/t5, feeding the decoder inputs one by one with key/value caches at least as long as the row gives exactly the logits of the forward pass on the whole row, up to the first padding target; hence those with which the model was trained on the example, wherever it was packed. The log-probability that sampling returns (rescale_log_probs=False) is the score of the sequence under the forward pass. What is fed beyond the length of the caches is not stored.", "quantifier": "all parameters as in C93, all numbers of layers, heads and features, rows, packings, cache lengths, prompts and ways of choosing tokens", "why_tests_cant": "ranges over all parameters and sequences; tests compare a few steps of a random model within a tolerance.", "anchors": ["t5x/examples/t5/layers.py:MultiHeadDotProductAttention", "t5x/examples/t5/network.py:DecoderLayer", "t5x/examples/t5/network.py:Transformer.decode", "t5x/models.py:EncoderDecoderModel.predict_batch_with_aux", "t5x/models.py:EncoderDecoderModel.score_batch"]}
{"id": "C95", "title": "the decoder-only network: packing, prefixes and prefilled prompts give the same logits", "statement": "For the decoder-only network of examples/decoder_only: an example has exactly the same logits alone in its row and packed with others at any position, with bidirectional attention over its prefix or without; from the end of the prefix on, later inputs and targets change nothing. Prediction prefills the caches with the prompt only, and every later step gives the logits of the forward pass over prompt and tokens: those of training, wherever the example was packed. The log-probability that sampling returns is the score of the sequence under the forward pass.", "quantifier": "all parameters as in C93, all numbers of layers, heads and features, rows, packings, prompts without padding inside, continuations and ways of choosing tokens", "why_tests_cant": "ranges over all parameters and rows; tests compare a few rows of a random model within a tolerance.", "anchors": ["t5x/examples/decoder_only/network.py:Decoder", "t5x/examples/decoder_only/network.py:DecoderLayer", "t5x/examples/decoder_only/layers.py:MultiHeadDotProductAttention", "t5x/models.py:DecoderOnlyModel._compute_kv_cache", "t5x/models.py:DecoderOnlyModel.predict_batch_with_aux"]}
{"id": "C96", "title": "packing changes neither the training loss nor its gradient", "statement": "For the T5 and decoder-only networks, a batch in which examples are packed into rows in any grouping has the same loss, z-loss and weight sum as the batch with one example in each row padded to any lengths, and the same derivative with respect to the parameters. This holds for loss_normalizing_factor None or a number when the batch has decoder_loss_weights, and for NUM_REAL_TARGET_TOKENS and AVERAGE_PER_SEQUENCE with or without them. It does not hold for NUM_TOTAL_TARGET_TOKENS, which scales the loss by the share of padding, nor without weights and factor, when padding itself is trained on.", "quantifier": "all parameters as in C93, all examples without padding inside, groupings into rows, row lengths, weights, label smoothings and z-loss coefficients", "why_tests_cant": "ranges over all parameters, examples and groupings; tests have a few rows with fixed logits.", "anchors": ["t5x/models.py:BaseTransformerModel.loss_fn", "t5x/models.py:EncoderDecoderModel._compute_logits", "t5x/models.py:DecoderOnlyModel._compute_logits", "t5x/losses.py:compute_weighted_cross_entropy", "t5x/losses.py:get_loss_normalizing_factor_and_weights"]}
{"id": "C97", "title": "training continues with the batches it would have seen without the interruption", "statement": "If the input pipeline is saved with the checkpoint by Checkpointer, then after a restart, on the same cluster or any other with the same number of data shards and with any seed, every process restores the iterator of its own shard, also the processes that wrote no file, and step j gets the batch that step k+j would have got without the interruption. With another number of shards restoring fails on every process. The Orbax manager does this only for the processes that are first in their replica set: the others silently start over, so that two processes fill the same rows of the global batch with different examples; and it fails on a cluster with another number of processes.", "quantifier": "all pipelines whose iterator state determines the following batches, all meshes, data axes, batch sizes, numbers and orders of processes, steps and seeds", "why_tests_cant": "needs several processes, a restart on another topology, and ranges over all of them; tests run one process.", "anchors": ["t5x/checkpoints.py:Checkpointer.save", "t5x/checkpoints.py:Checkpointer.restore", "t5x/checkpoints.py:DatasetCheckpointHandler", "t5x/checkpoints.py:OrbaxCheckpointManagerInterface", "t5x/partitioning.py:BasePartitioner.get_data_layout"]}
{"id": "C98", "title": "the Orbax manager restores the checkpoint it is asked for, in the format it has", "statement": "Given the path of a checkpoint directory, the Orbax manager restores that checkpoint and no other: by Orbax, or by the T5X checkpointer if it has a T5X file without Orbax metadata; TensorFlow checkpoints, or a step and a path together, are errors. Given a step it restores that step of its own directory if it is an Orbax checkpoint; if it is a T5X checkpoint, it restores the latest one instead. The manager saves with the dtype, keep and period of the save configuration, restores with the dtype of the restore configuration, and receives the metric settings of a functools.partial of the checkpointer class, but not those of the class itself; its iterator is saved and restored if either configuration asks for it.", "quantifier": "all file systems, directories, steps, contents of checkpoint files and configurations", "why_tests_cant": "ranges over all file systems and configurations; tests use one directory written by the same code.", "anchors": ["t5x/checkpoint_utils.py:detect_checkpoint_type", "t5x/checkpoints.py:OrbaxCheckpointManagerInterface.restore", "t5x/utils.py:create_orbax_checkpoint_manager", "t5x/utils.py:LegacyCheckpointManager"]}
{"id": "C99", "title": "beam search finds every sequence that is not outnumbered", "statement": "If at every position fewer than num_decodes other unfinished sequences are at least as likely as a sequence so far (and at its EOS at most num_decodes), then the best beam returned has a score at least that of the sequence, however early the search stops and whatever the other rows are. With one beam this holds for the sequence that follows the most likely token other than EOS and ends when EOS is among the two most likely ones, so that one beam is at least as good as greedy decoding that ends. With num_decodes at least (vocabulary size - 1)^(maximal number of tokens) the best beam is the optimum over all sequences. In general more beams can give a worse result, and one beam is not greedy decoding.", "quantifier": "all decoders, vocabularies, numbers of beams, lengths, prompts, brevity penalties, batches and sequences", "why_tests_cant": "is about all sequences a decoder could produce, exponentially many; tests compare one search with its expected output.", "anchors": ["t5x/decoding.py:beam_search", "t5x/decoding.py:gather_topk_beams", "t5x/decoding.py:beam_init"]}
{"id": "C100", "title": "Scalable T5 is one network, scanned or not", "statement": "With scan_layers=True the scalable T5 network computes, for whole rows and token by token, the same logits as with scan_layers=False and the layers' parameters taken as slices of the stacked arrays; and the parameters of every unscanned network (with the same activations in all layers) can be stacked. If all encoder layers have one bias table and all decoder layers have one, the network is the T5 network with these tables and its kernels reshaped. With bias tables of its own in each layer, too, the logits of an example do not depend on padding, on the examples packed into its rows or on its place, the logits of decoding token by token are those of the whole row, and the log-probabilities returned by sampling are scores.", "quantifier": "all layer counts, widths, parameters with bounded attention logits, rows, segments, prompts and ways to choose tokens", "why_tests_cant": "quantifies over all parameters and numbers of layers; tests compare one small network with stored outputs.", "anchors": ["t5x/examples/scalable_t5/network.py:Encoder", "t5x/examples/scalable_t5/network.py:Decoder", "t5x/examples/scalable_t5/network.py:Transformer", "t5x/examples/scalable_t5/layers.py:MultiHeadDotProductAttention", "t5x/examples/scalable_t5/layers.py:DenseGeneral"]}
{"id": "C101", "title": "The T5 network for GPUs is the T5 network with scaled queries", "statement": "On tokens of the vocabulary the network of contrib/gpu/t5 with scale_attn_logits computes, for whole rows and token by token, what the T5 network computes with its query kernels divided by the root of the head dimension, and without scale_attn_logits what the T5 network computes; so a T5 checkpoint can be used after multiplying the query kernels by that root. The initialiser of the query kernels divides by the root in any case, so with scale_attn_logits a new model has attention logits divided by the head dimension. Outside the vocabulary the networks differ: the T5 network embeds such tokens as zero, the one for GPUs as a row of the table.", "quantifier": "all parameters, widths, rows, tokens and lengths", "why_tests_cant": "quantifies over all parameters and rows; the tests of contrib/gpu compare one network with stored outputs, with scale_attn_logits off.", "anchors": ["t5x/contrib/gpu/t5/layers.py:MultiHeadDotProductAttention", "t5x/contrib/gpu/t5/layers.py:Embed", "t5x/contrib/gpu/t5/network.py:Transformer"]}
{"id": "C102", "title": "a training job survives being killed and restarted", "statement": "A job is started any number of times with train.py and Checkpointer (save_dataset=True), each time with any schedule, retention policy and cluster with the same number of data shards; it is killed at any moment, also between two file operations of a save or of the removal of old checkpoints, and checkpoints are pinned and unpinned in between. At every moment the processes hold the train state that a job without interruptions has after as many steps, and will be fed its next batches. Every restart succeeds, starts from the largest step ever saved completely, and that step never decreases. A start that is not killed ends with the train state of the uninterrupted job and a checkpoint of it. The exception is PreemptionError inside a block of training steps: the emergency checkpoint holds the train state from before the block with the iterators from the moment of the exception, and the batches of the interrupted steps are never trained on.", "quantifier": "all programs whose train state is written and read faithfully, numbers of restarts, moments of kills, schedules, retention policies, clusters and pipelines", "why_tests_cant": "is about all sequences of crashes at all points of all runs; tests restart a few times, between steps.", "anchors": ["t5x/train.py:train", "t5x/trainer.py:BaseTrainer.train", "t5x/checkpoints.py:Checkpointer.save", "t5x/checkpoints.py:Checkpointer.restore", "t5x/utils.py:create_checkpoint_manager_and_restore"]}
{"id": "C103", "title": "sampling draws from the model's distribution", "statement": "For a temperature above 1e-4 temperature_sample returns, for every decode of every example, each sequence with the product of the probabilities of its generated tokens, each given by the logits after what precedes it, tempered and restricted by topk and topp; the decodes are independent, of each other and of the other examples, so that num_decodes tries find a sequence of probability q with probability 1-(1-q)^num_decodes. With rescale_log_probs the exponential of the returned log-probability is the probability with which the sequence was to be returned, without it the probability that the model gives to it. With temperature 1 and no restriction, the T5 model returns a sequence with the exponential of the score that score_batch gives to it.", "quantifier": "all models, logits, prompts, temperatures, topk, topp, numbers of decodes, batches and sequences; the T5 networks with bounded attention logits", "why_tests_cant": "is about the distribution of outputs; a test observes single draws with fixed keys.", "anchors": ["t5x/decoding.py:temperature_sample", "t5x/decoding.py:_temperature_sample_single_trial", "t5x/models.py:EncoderDecoderModel.predict_batch_with_aux", "t5x/models.py:EncoderDecoderModel.score_batch"]}
{"id": "C104", "title": "the number of microbatches and the loss normalising factor", "statement": "Without a loss_normalizing_factor, or with a number, a training step with num_microbatches=k has the gradient and reports the loss of a step on the whole batch. With the special factors it has not: the loss of each microbatch is divided by the factor of that microbatch, and the results are added. If the microbatches have equal factors (always for NUM_TOTAL_TARGET_TOKENS, for AVERAGE_PER_SEQUENCE with one sequence in each row, for NUM_REAL_TARGET_TOKENS with equally many target tokens in the rows), the gradient and the reported loss are k times those of the whole batch; otherwise tokens in microbatches with a smaller factor count more.", "quantifier": "all models that act on each row and are differentiable, parameters, batches, numbers of microbatches, loss normalising factors, label smoothing and z-loss", "why_tests_cant": "compares gradients for all models and batches; tests of microbatching use a mock model without the loss.", "anchors": ["t5x/trainer.py:accumulate_grads_microbatched", "t5x/models.py:BaseTransformerModel.loss_fn", "t5x/losses.py:get_loss_normalizing_factor_and_weights", "t5x/losses.py:compute_weighted_cross_entropy"]}
{"id": "C105", "title": "the T5 network on arrays with a batch is the network on each row", "statement": "DenseGeneral contracts any number of trailing axes with its 2-D kernel, in row-major order. With parameters of the declared shapes Transformer applied to a batch returns an array [batch, length, vocab] whose row b is what the network computes for row b alone, for all layer counts, widths, rows and segment ids; so the logits of an example do not depend on the other examples of the batch, on their number or on its position (encoder segment ids without decoder segment ids raise). The same holds for decoding with caches, one token for each row at a time, and so decoding a batch token by token gives in every row, up to its first padding target, the logits of the batch computed at once.", "quantifier": "all parameters of the declared shapes, layer counts, widths, batch sizes, lengths, tokens and segment ids; the last part for bounded attention logits", "why_tests_cant": "quantifies over all shapes, parameters and batches, and over the axes in einsum strings, reshapes and transpositions; tests compare one small network with stored outputs.", "anchors": ["t5x/examples/t5/layers.py:DenseGeneral", "t5x/examples/t5/layers.py:MultiHeadDotProductAttention", "t5x/examples/t5/layers.py:dot_product_attention", "t5x/examples/t5/layers.py:RelativePositionBiases", "t5x/examples/t5/network.py:Transformer", "t5x/models.py:EncoderDecoderModel.predict_batch_with_aux"]}
{"id": "C106", "title": "evaluation with the interactive model gives metric functions matching targets, predictions and scores", "statement": "InteractiveModel.evaluate_with_preprocessors sorts metric functions by their parameters without default and refuses any that has none of the three documented forms, before computing anything. If one of them uses predictions, every metric function is called on process 0 with the targets of all examples in order and the predictions or scores for the same examples in the same order, each computed in its batch with the key of that batch, and the values of all metric functions are returned; two values with one name are an error. The dataset has one element for each example, in order, with elementwise preprocessors, and output features are cut to their lengths; train_step trains on the first batch_size examples. Not so: with metric functions of scores only evaluation always ends in an UnboundLocalError; without a postprocessor targets are bytes and predictions strings, so that none equals its target; a postprocessor is applied to the targets only; and process 0 waits at a barrier that the other processes never reach.", "quantifier": "all examples, preprocessors, batch sizes, models, metric functions, postprocessors and processes", "why_tests_cant": "is about all metric functions and batch sizes; the repository has no tests of the interactive model.", "anchors": ["t5x/interactive_model.py:InteractiveModel.evaluate_with_preprocessors", "t5x/interactive_model.py:InteractiveModel._compute_metrics", "t5x/interactive_model.py:get_dataset_from_natural_text_examples", "t5x/interactive_model.py:InteractiveModel.train_step_with_preprocessors"]}
{"id": "C107", "title": "scores of an exported model are the log-likelihoods of the texts", "statement": "An exported encoder-decoder T5 model with inference mode score gives every example of a batch the log-likelihood of its target tokens (cut to the feature length, with EOS if the feature has one) after its input tokens: the sum of the log-softmax values of the target tokens, computed by the network on the unpadded text alone. The score does not depend on the other examples of the batch, on the position in it, on the bucket lengths given to the preprocessor, or on the padding; two exports that differ in the buckets agree.", "quantifier": "all parameters with bounded attention logits, feature lengths, buckets, batch sizes and positive tokens; inputs not empty after adding EOS", "why_tests_cant": "composes tokenised preprocessing, bucketing, ragged batching, masking and the whole network; a test compares a few strings with stored scores.", "anchors": ["t5x/export_lib.py:create_preprocessor", "t5x/export_lib.py:create_inference_function", "t5x/models.py:EncoderDecoderModel.score_batch", "t5x/examples/t5/network.py:Transformer"]}
{"id": "C108", "title": "the prediction for an example does not depend on its batch", "statement": "With temperature_sample, the tokens and the log-probability returned for an example depend only on its prompt, on what the model answers for it and on the random choices made for its row; not on the other rows, their number, or how long they take. For the T5 network they do not depend on how far the encoder input is padded. Hence an exported predicting model gives an example the same greedy prediction in every batch and with every choice of buckets for the inputs. The number of decoded positions is the smallest permitted width of the targets: with buckets for the targets, predictions are never longer than the smallest bucket.", "quantifier": "all models, prompts padded on the right, batches, choices of tokens; for the T5 network all parameters with bounded attention logits and non-empty inputs of positive tokens", "why_tests_cant": "quantifies over all batches and models; rows interact through the common loop condition, so a test of a few batches shows little.", "anchors": ["t5x/decoding.py:temperature_sample", "t5x/models.py:EncoderDecoderModel.predict_batch_with_aux", "t5x/export_lib.py:create_preprocessor", "t5x/examples/t5/network.py:Transformer"]}
{"id": "C109", "title": "offline inference with the T5 network gives each example its own score or prediction", "statement": "A pass of infer over a data set with the encoder-decoder T5 model returns, in the order of the data set and one for each example, the log-likelihood of its targets after its inputs (both cut to the task feature lengths) in mode score, and the greedy prediction made for its input alone, unpadded and without targets, in mode predict. So batch size, number of shards, padding examples, neighbours (even malformed ones) and feature lengths that hold the inputs change nothing: two runs that differ in them write the same scores and predictions.", "quantifier": "all parameters with bounded attention logits, data sets, batch sizes, numbers of shards that divide them, feature lengths; examples with positive tokens and a non-empty input", "why_tests_cant": "composes sharding, batching, padding, the network, decoding and reordering for all data sets; tests run one model on one small data set with one batch size.", "anchors": ["t5x/utils.py:get_infer_fn", "t5x/models.py:EncoderDecoderModel.score_batch", "t5x/models.py:EncoderDecoderModel.predict_batch_with_aux", "t5x/infer.py:infer"]}
{"id": "C110", "title": "the beams found for an example do not depend on its batch", "statement": "beam_search returns for a row of a batch the sequences and scores it would return for the row in any other batch with the same prompt, cache and decoder, in the same order as far as the scores differ: rows that are done early wait for the others, but waiting changes nothing. For the T5 network the padding of the encoder input does not matter either, if the logits, which the final layer norm bounds, are too small for a text to reach min_log_prob; hence offline inference with beam search gives every example the beams found for its input alone, whatever the batch size and the number of shards. Not so: beams with equal scores change places in every iteration that the row waits, so that the best beam, the one that predict_batch returns, can depend on the batch; and a min_log_prob that stops the search does so only when all rows are below it.", "quantifier": "all decoders, beam sizes, alphas, prompts without EOS, lengths, step limits and batches with one initial index; for the T5 network all parameters with bounded attention logits", "why_tests_cant": "needs all batches and models; the loop condition is shared by all rows, and a test can try only a few of them.", "anchors": ["t5x/decoding.py:beam_search", "t5x/models.py:EncoderDecoderModel.predict_batch_with_aux", "t5x/utils.py:get_infer_fn"]}
{"id": "C111", "title": "a decoder-only model continues every prompt from the distribution it was trained on", "statement": "predict_batch_with_aux of a decoder-only model with temperature_sample returns for every row num_decodes continuations of its prompt, without the prompt, each generated token by token from the logits that the forward pass of training gives after the text so far, and padded after EOS or the step limit; without return_all_decodes, the one with the highest log-probability. With a temperature up to 1e-4 the continuation depends on nothing but the prompt: not on the batch, the row width, what the row holds after the prompt, num_decodes or the random numbers; a smaller limit only cuts it off. With a higher temperature a continuation is found with the probability that num_decodes independent draws from these distributions find it; at temperature 1 without topk and topp the probability of a continuation is the exponential of its score by score_batch.", "quantifier": "all parameters with bounded attention logits, batches, widths, prompts without padding inside, step limits of at least 1, numbers of decodes, random numbers, with bidirectional attention over the prompt or without", "why_tests_cant": "a statement about all prompts, batches and random numbers and about probabilities; composes prefilling, caches, sampling, sorting and prefix removal.", "anchors": ["t5x/models.py:DecoderOnlyModel.predict_batch_with_aux", "t5x/models.py:DecoderOnlyModel._compute_kv_cache", "t5x/models.py:remove_prefix", "t5x/decoding.py:temperature_sample", "t5x/models.py:DecoderOnlyModel.score_batch"]}
{"id": "C112", "title": "the decoder-only network on a batch is the network of every row, at every row's own index", "statement": "The decoder-only network applied to a batch of arrays (Decoder.__call__ with its attention, mask, bias and cache arrays) returns logits of shape [batch, length, vocab] whose row b is what the network computes for row b alone, packed or not, with a bidirectional prefix or without; so they depend neither on the other rows nor on their number. _compute_kv_cache on a batch of prompts of different lengths fills in every row the caches up to the length of its own prompt and returns these lengths as the initial index; each decoding step reads, for every row, the biases and the causal mask at the row's own index and writes the key and value there. So feeding row b the tokens from the end of its prompt on gives after k tokens the logits of training at position len(b)+k of row b. The cached relative position biases are those that would be computed again.", "quantifier": "all parameter arrays of the right shapes, all batches, rows, prompt lengths, prefix and segment arrays; for the comparison with training, bounded attention logits", "why_tests_cant": "needs all shapes and all combinations of prompt lengths in a batch; a test on a few shapes cannot exclude that an axis, a broadcast or an einsum mixes rows for others.", "anchors": ["t5x/examples/decoder_only/network.py:Decoder", "t5x/examples/decoder_only/network.py:DecoderLayer", "t5x/examples/decoder_only/layers.py:MultiHeadDotProductAttention", "t5x/examples/decoder_only/layers.py:RelativePositionBiases", "t5x/models.py:DecoderOnlyModel._compute_kv_cache"]}
{"id": "C113", "title": "training with dropout: unbiased, causal, and the same in expectation for packed and padded batches", "statement": "With dropout enabled, each dropped entry and each attention weight keeps its expectation, and without a dropout_rng (or with dropout_rate 0) the networks compute what they compute in evaluation. For every outcome of the random bits, the logits of an example in a packed or padded row depend only on the example and on the bits that belong to its positions; later inputs and other examples in the row change nothing. Hence the training loss, the z-loss and the gradient have the same expectation for a packed batch as for the padded batch of the same examples, with the loss normalizing factors for which this holds without dropout. Each place of dropout acts on what it is named after: e.g. if the attention weights are all dropped, the logits of a position depend on no other input.", "quantifier": "all parameters with bounded attention logits, dropout rates from 0 to below 1, outcomes of the random bits, batches, rows, packings, label smoothing and z-loss; encoder-decoder and decoder-only", "why_tests_cant": "an equality of expectations over exponentially many random masks, for all examples and packings; tests fix one seed.", "anchors": ["t5x/examples/t5/network.py:Transformer", "t5x/examples/t5/layers.py:dot_product_attention", "t5x/examples/decoder_only/network.py:Decoder", "t5x/models.py:BaseTransformerModel.loss_fn", "t5x/models.py:EncoderDecoderModel._compute_logits"]}
{"id": "C114", "title": "initialising the networks: the parameters, their shapes and axes, and what the rest of the library does with them", "statement": "Initialising the encoder-decoder or the decoder-only network creates exactly the parameters of its architecture, each once, with the documented paths, shapes and logical axes. They do not depend on the batch size, the lengths or the presence of segment ids in the input shapes, so that a network initialised with any shapes can be applied to every batch. Every parameter has one axis name per dimension, no name twice; the standard partitioning rules give every one of them a placement, which divides the dimensions evenly if the sizes of the architecture are multiples of the mesh axes. Adafactor's standard factor rules cover all parameters and the optimizer state has the documented shapes. A checkpoint of the original T5 code base for the same architecture is imported completely: all of its variables are used, with fitting shapes, and no array of the train state is left without a value.", "quantifier": "all configurations (sizes, numbers of layers, heads and activations, shared or separate logits), input shapes, batches, standard rules, additional rules without 'embed', T5 checkpoints of the architecture", "why_tests_cant": "relates five parts of the library for all architectures; tests build one or two small networks.", "anchors": ["t5x/models.py:EncoderDecoderModel.get_initial_variables", "t5x/models.py:DecoderOnlyModel.get_initial_variables", "t5x/examples/t5/network.py:Transformer", "t5x/examples/t5/layers.py:param_with_axes", "t5x/examples/decoder_only/network.py:Decoder", "t5x/partitioning.py:standard_logical_axis_rules", "t5x/adafactor.py:Adafactor.set_param_axes", "t5x/checkpoint_importer.py:restore_from_t5_checkpoint"]}
{"id": "C115", "title": "Adafactor trains stacked (scanned) layers as separate layers", "statement": "Scanning over layers stores the parameters of all layers in one array with an additional dimension 'layers', at any position. Training such a stack with Adafactor gives every layer, after any number of steps, exactly the parameters, momentum and second moments which it would have if it were a parameter of its own and got its slice of the gradients: decay, parameter scale, clipping and weight decay are computed within a layer. This holds for kernels of rank greater than two, for parameters that are not factored (layer norm scales, position biases), and for matrices with both dimensions of at least min_dim_size_to_factor, whatever the factored dimensions are called. It does not hold for smaller matrices, which are factored in a stack only, nor with factored=False, which mixes the layers.", "quantifier": "all shapes, numbers of layers, positions of the dimension, hyper-parameters and schedules, sequences of gradients, numbers of steps", "why_tests_cant": "equality of two training runs of any length; tests compare one step of one shape.", "anchors": ["t5x/adafactor.py:Adafactor._parse_rule", "t5x/adafactor.py:Adafactor.init_param_state", "t5x/adafactor.py:Adafactor.apply_param_gradient", "t5x/adafactor.py:standard_logical_factor_rules", "t5x/examples/scalable_t5/network.py:Decoder"]}
{"id": "C116", "title": "scanned and separate layers: the same network parameters, stacked", "statement": "Initialising the scalable T5 network creates exactly the parameters of its architecture, each once, with the documented paths, shapes and logical axes, whatever the input shapes. With scan_layers the parameters of all layers of a tower are stored under encoder/encoder and decoder/decoder with one more dimension 'layers' at position param_scan_axis, 0 or 1: layer i of the network with separate layers has exactly these parameters without that dimension, the other parameters are the same, and the number of trained scalars is the same. The standard partitioning rules never split the layers and place the other dimensions as without scanning, even if an additional rule asks for something else; Adafactor's standard rules treat the layers as a batch dimension and the other dimensions as without scanning. A param_scan_axis of 2 or more raises, because layer norm scales have one dimension.", "quantifier": "all configurations (sizes, numbers of layers, heads and activations, shared or separate logits), input shapes, additional partitioning rules, lower-casing functions", "why_tests_cant": "relates two variants of the network, partitioning and optimizer for all architectures; tests build one small network of each kind.", "anchors": ["t5x/examples/scalable_t5/network.py:Encoder", "t5x/examples/scalable_t5/network.py:Decoder", "t5x/examples/scalable_t5/layers.py:DenseGeneral", "t5x/models.py:EncoderDecoderModel.get_initial_variables", "t5x/partitioning.py:standard_logical_axis_rules", "t5x/adafactor.py:standard_logical_factor_rules"]}
{"id": "C117", "title": "training with scanned layers is training with separate layers", "statement": "Take the scalable T5 network with scan_layers and without, the same loss as a function of the network's parameters, and the same starting parameters (stacked in the first case). Train both with Adafactor and its standard factor rules, with or without clipping of the global gradient norm, momentum, weight decay and parameter scale, at any learning rate schedule. Then neither training ever fails, and after any number of steps the parameters are the same up to stacking; also the gradients and their global norm are. Hence the two trained networks compute the same logits for every row, also when decoding. This holds if min_dim_size_to_factor is at most embed and mlp dimension and greater than the number of heads or than 32 (the number of position buckets), as for the default of 128 and all published sizes.", "quantifier": "all configurations, losses that depend on the network's parameters through the network only, gradients, hyper-parameters, schedules, numbers of steps, starting parameters", "why_tests_cant": "compares two trainings of any length for all architectures; tests train one network of one kind for a few steps.", "anchors": ["t5x/examples/scalable_t5/network.py:Encoder", "t5x/examples/scalable_t5/network.py:Decoder", "t5x/adafactor.py:Adafactor.apply_gradient", "t5x/adafactor.py:Adafactor.set_param_axes", "t5x/train_state.py:FlaxOptimTrainState.apply_gradient", "t5x/trainer.py:apply_grads"]}
{"id": "C118", "title": "training on packed examples is training on the same examples one per row", "statement": "Take a T5 model (encoder-decoder or decoder-only), any optimizer and learning rate schedule, and training data in two forms: every batch with several examples packed into a row (with segment ids and positions), or with one padded example per row; row lengths and batch sizes may differ. Without dropout and with a loss normalization that does not count padding, Trainer.train gives the same train state and the same metrics for any number of steps. With gradient accumulation over microbatches this also holds for a constant normalizing factor or none, with any two numbers of microbatches that divide the batch sizes, and no step fails.", "quantifier": "all networks whose attention logits stay below the masking constant near the visited parameters, all lists of examples, ways of packing, row lengths, weights, label smoothings, z-losses, optimizers, schedules, numbers of steps and microbatches", "why_tests_cant": "relates two trainings on differently shaped data for all data sets and any number of steps; tests check the features of packed examples or one loss.", "anchors": ["t5x/trainer.py:train_with_lr", "t5x/trainer.py:accumulate_grads_microbatched", "t5x/trainer.py:BaseTrainer.train", "t5x/models.py:BaseTransformerModel.loss_fn", "t5x/models.py:EncoderDecoderModel._compute_logits", "t5x/models.py:DecoderOnlyModel._compute_logits", "t5x/losses.py:get_loss_normalizing_factor_and_weights"]}
{"id": "C119", "title": "the trainer for mixtures of experts is the regular trainer with scaled expert gradients", "statement": "MoeTrainer trains exactly as Trainer would if the gradient of every parameter whose path matches sharded_match_fn were multiplied by num_expert_partitions for each microbatch; nothing else differs, for any number of steps and microbatches. With the default these are the parameters whose path contains 'expert'. Without a match function, with one expert partition, or without matching parameters it is the regular trainer. With Adafactor the factor has no effect on the trained parameters other than that epsilon1 counts less.", "quantifier": "all trees of parameters, match functions, numbers of partitions, losses, optimizers, batches, microbatches and numbers of steps", "why_tests_cant": "quantifies over all parameter trees and training runs; tests check the scaling of one small dict of gradients.", "anchors": ["t5x/contrib/moe/trainer.py:MoeTrainer._partitioned_train_step", "t5x/contrib/moe/training_utils.py:scale_sharded_grads", "t5x/contrib/moe/training_utils.py:match_fn", "t5x/trainer.py:accumulate_grads_microbatched", "t5x/trainer.py:apply_grads", "t5x/adafactor.py:Adafactor.apply_param_gradient"]}
{"id": "C120", "title": "the reported metrics of packed batches are those of the same examples padded", "statement": "For a period of training or evaluation of a T5 model on packed batches, the summary reports the same accuracy, loss, loss per non-padding target token, z-loss and cross entropy as for padded batches with the same examples; the accuracy is the part of the targets with weight that the model predicts for each example on its own. effective_batch_size of packed batches is the number of examples per step, as it is for padded batches; non_padding_fraction is the part of the positions that hold tokens of examples. timing/seqs counts rows, so that for packed batches it is not the number of examples.", "quantifier": "all networks whose attention logits stay below the masking constant, all lists of examples in every piece of the period, ways of packing, row lengths, loss weights, label smoothings, z-losses, normalizing factors that do not count padding, orders of merging, durations, steps and numbers of devices", "why_tests_cant": "relates the summaries of two runs on differently shaped data for all data sets; tests check compute_base_metrics on fixed logits.", "anchors": ["t5x/models.py:BaseTransformerModel.loss_fn", "t5x/models.py:compute_base_metrics", "t5x/models.py:count_packed_examples", "t5x/metrics.py:AveragePerStep", "t5x/losses.py:get_loss_normalizing_factor_and_weights", "t5x/trainer.py:eval_step", "t5x/models.py:BaseModel.eval_fn"]}
{"id": "C121", "title": "what an export puts around the model: dual encoder features, task pipelines, warmup requests, directories and shapes", "statement": "A dual encoder export tokenizes the part of each text before the first separator for the left and the part after it for the right tower; row i shows the tokens of text i cut to the length, with EOS, then padding, whatever else is in the batch. PreprocessorFnFromTask answers a request of B examples exactly if the task makes at least B and fewer than 2B rows, with the first B rows; if each example makes one row, row i is that of example i. The warmup file has one request per pair of a batch of examples and a batch size, each of exactly that size, with decoder parameters of the same size. The output directories keep what the caller gave and always have one for cpu: BASE_cpu/VERSION for BASE/VERSION. Fake inputs have the shapes of the signature with batch size 1 where it is unknown; polymorphic shapes are given for all features exactly if some dimension is unknown, and overrides win.", "quantifier": "all texts, tokenizers, separators, features, batches, pipelines, batch sizes, directories, signatures and overrides", "why_tests_cant": "quantifies over all requests and all task pipelines; tests export a few small models and try one or two batches.", "anchors": ["t5x/export_lib.py:create_dual_encoder_preprocessor", "t5x/export_lib.py:PreprocessorFnFromTask.process_fn", "t5x/export_lib.py:_feature_description_from_element_spec", "t5x/export_lib.py:write_warmup_examples", "t5x/export_lib.py:_request_for_batch", "t5x/export_lib.py:_standardize_output_dirs", "t5x/export_lib.py:create_fake_input", "t5x/export_lib.py:create_batch_polymorphic_shapes"]}
{"id": "C122", "title": "converting a T5 checkpoint first, or restoring it directly, gives the same train state", "statement": "restore_from_tf_checkpoint puts the imported value at every variable of the train state, parameters cast to restore_dtype. convert_from_tf_checkpoint writes a checkpoint that, restored later by any checkpointer of the same shapes, with any partitioning and from wherever it was moved, gives the imported values, parameters cast to save_dtype and then to restore_dtype; if save_dtype is the dtype of the imported parameters, it is the very state of the direct restore. A variable of the train state that the T5 checkpoint lacks is an error in both. A T5 checkpoint of the same architecture has none missing, for the encoder-decoder and the decoder-only network with Adafactor.", "quantifier": "all train states, T5 checkpoints, importers, dtypes, partitionings, directories, orders of writing and later moves; all T5 configurations for the last part", "why_tests_cant": "compares two pipelines (import, and import-save-move-restore) for all states; tests restore one small T5 checkpoint.", "anchors": ["t5x/checkpoints.py:Checkpointer.restore_from_tf_checkpoint", "t5x/checkpoints.py:Checkpointer.convert_from_tf_checkpoint", "t5x/checkpoint_importer.py:restore_from_t5_checkpoint", "t5x/checkpoint_importer.py:_update_state_dict", "t5x/scripts/convert_tf_checkpoint.py:convert_checkpoint"]}
{"id": "C123", "title": "where the train state of a job comes from", "statement": "A training job whose directory has checkpoints starts from the latest one: read with the class, dtype and dataset setting of its save configuration, with every configured transformation told that the job resumes, and without a fallback to fresh parameters. If the directory has none, it starts from the configured initial checkpoint with that configuration's settings, transformations and, if asked for, freshly initialised values for what is missing; otherwise from scratch, leaving its data pipeline alone. TrainStateInitializer.from_checkpoint_or_scratch gives the same state for the same list of configurations. A fine-tuning job with an assignment map that is stopped and restarted goes on with exactly the state it saved: the map is not applied a second time. With Orbax this is the same if the configured manager class is the default one, apart from the dataset setting of the initial checkpoint. Evaluation, inference and export read the checkpoint they are given with the settings of the restore configuration; evaluation ignores surplus variables of TensorFlow checkpoints.", "quantifier": "all save and restore configurations, directories and checkpoints in them, transformations, checkpoint readers, random keys, pipelines; with or without Orbax; for fine-tuning all train states, dtypes and partitionings", "why_tests_cant": "quantifies over all combinations of configurations and directory contents and over two processes (stopped and restarted); tests mock the managers for a few cases.", "anchors": ["t5x/train.py:train", "t5x/utils.py:create_checkpoint_manager_and_restore", "t5x/utils.py:LegacyCheckpointManager", "t5x/utils.py:create_orbax_checkpoint_manager", "t5x/utils.py:restore", "t5x/utils.py:TrainStateInitializer.from_checkpoint_or_scratch", "t5x/utils.py:RestoreCheckpointConfig.__post_init__", "t5x/checkpoints.py:Checkpointer.restore", "t5x/state_utils.py:apply_assignment_map", "t5x/interactive_model.py:InteractiveModel.__init__", "t5x/export_lib.py:save"]}
{"id": "C124", "title": "meshes of GPUs, CPUs and several TPU slices, and the hosts' parts of them", "statement": "default_mesh places every device at exactly one position of the mesh. For GPUs the mesh has num_partitions columns (the model axis) and exists exactly if num_partitions divides the number of GPUs of a host, or is a multiple of it by a factor that divides the number of hosts; in the first case no group of model-parallel devices crosses a host, in the second every host lies in one row. With explicit mesh shapes for several slices, devices that differ only along axes of size 1 in the mesh of slices are on the same slice. The devices of every host of a GPU or TPU mesh form a rectangle, and these rectangles have the same size and are aligned, as LocalChunker and the data layout need. For CPUs the mesh has one row per process, whatever num_partitions is.", "quantifier": "all numbers of hosts, devices per host and slices, numberings of devices, numbers of partitions, mesh shapes and arrangements of devices inside a group", "why_tests_cant": "quantifies over all device topologies; tests mock a handful of them.", "anchors": ["t5x/partitioning.py:get_gpu_mesh", "t5x/partitioning.py:get_cpu_mesh", "t5x/partitioning.py:default_mesh", "t5x/partitioning.py:get_mesh", "t5x/partitioning.py:LocalChunker", "t5x/partitioning.py:BasePartitioner.get_data_layout"]}
{"id": "C125", "title": "a training job with the files it writes: kills, restarts and what is read back", "statement": "A training job writes its train state as a msgpack file and one tensorstore array per partitioned parameter, in any order, first into a temporary directory, together with the states of the input pipeline. It is started any number of times on clusters with the same number of data shards, with changing schedules and retention, and killed at any moment, also half way through a file. If the parameters have the dtype they are saved with, what the processes hold is always the train state of the job that was never interrupted after as many steps, every further start succeeds, and the files of the latest checkpoint are read as the state dict of the uninterrupted job at that step. The transformations configured for the initial checkpoint do not matter when they are bound to resuming. With another save dtype this is false: the restarted job goes on from rounded parameters of the dtype of saving.", "quantifier": "all train states, parameter trees, shapes, dtypes, storage (local or gs), trainers that keep shapes and dtypes, input pipelines, schedules, clusters, histories of starts, kills and pins", "why_tests_cant": "quantifies over the moment of the kill inside a save, over histories of restarts and over parameter trees; tests save and restore a single state without kills.", "anchors": ["t5x/train.py:train", "t5x/checkpoints.py:Checkpointer.save", "t5x/checkpoints.py:Checkpointer._write_state_to_tensorstore", "t5x/checkpoints.py:Checkpointer.restore", "t5x/utils.py:SaveCheckpointConfig", "t5x/partitioning.py:get_gpu_mesh"]}
{"id": "C126", "title": "a killed and restarted job computes what the Trainer computes on its data set", "statement": "A training job saves FlaxOptimTrainStates: parameters, optimizer state, step and mutables, as state dicts in the files of its checkpoints. It is started any number of times on clusters with the same number of data shards and killed at any moment, also half way through a file. If optimizer and model keep entries, shapes and dtypes and the Trainer raises no error on the data set, the train state of the running processes is the one that Trainer.train_step computes from the initial state with the first k global batches of the data set in order, k being the number of steps it counts, and the process that reads shard s is fed the batches of that shard from number k on. The latest checkpoint holds the state dict of such a state, and an InferenceState restored from it has its parameters, step and mutables. A job on packed examples and a job on the same examples one per row, each with its own kills, storage, schedule and number of microbatches, have the same train state whenever they have trained the same number of steps.", "quantifier": "all models, optimizers, train states and mutables, data sets, numbers of microbatches, storage, clusters, histories of starts, kills and pins", "why_tests_cant": "quantifies over histories of kills and restarts and over models, optimizers and data sets; no test restarts a job with files and compares its training with an uninterrupted one.", "anchors": ["t5x/train.py:train", "t5x/trainer.py:Trainer", "t5x/trainer.py:accumulate_grads_microbatched", "t5x/train_state.py:FlaxOptimTrainState.state_dict", "t5x/train_state.py:FlaxOptimTrainState.restore_state", "t5x/train_state.py:InferenceState.restore_state", "t5x/checkpoints.py:Checkpointer.save", "t5x/checkpoints.py:Checkpointer.restore"]}
{"id": "C127", "title": "What inference computes with the checkpoints of a training job", "statement": "A training job is started, killed and restarted as in C126. An inference job for the same model (t5x/infer.py) restores the latest checkpoint into an InferenceState, from wherever the files have been copied to, with any restore dtype, with another checkpointer. Its parameters are those that Trainer.train_step computes from the initial state with the first k global batches, cast to the dtype asked for; its step is that of the checkpoint and its mutables are those of the trainer; the optimizer state is left out. More generally, restoring a saved state into a template that has some of its entries only gives exactly the entries of the template, with the saved values. The scores in the output of the inference are, in the order of the data set, the log-likelihoods of the examples under the network with these parameters, whatever the number of shards and the batch size. A job that trains on packed examples and one that trains on the same examples one per row give the same scores, if their latest checkpoints are of the same step.", "quantifier": "all models, optimizers, data sets, storage, histories of starts and kills, places of the files, restore dtypes, shards and batch sizes, examples to score", "why_tests_cant": "quantifies over histories of kills and restarts, over storage and over trained models; no test runs inference with the checkpoint of a training job that was killed.", "anchors": ["t5x/infer.py:infer", "t5x/train.py:train", "t5x/trainer.py:Trainer", "t5x/train_state.py:InferenceState.restore_state", "t5x/checkpoints.py:Checkpointer.save", "t5x/checkpoints.py:Checkpointer.restore", "t5x/utils.py:get_infer_fn", "t5x/models.py:EncoderDecoderModel.score_batch"]}
{"id": "C128", "title": "Jobs that train with Adafactor: steps that cannot fail, kept entries and shapes, kills and restarts", "statement": "Adafactor is started with parameters in nested dicts without empty ones, for which init_state succeeds. In every train state that the Trainer reaches, with any batches, learning rates and gradients, apply_gradient raises no error; the new parameters and accumulators have the entries, in the same order, the shapes and the dtypes of the initial ones, and each is what Adafactor computes from the parameter, the accumulators and the gradient with the same name. Parameters, accumulators, step and mutables are recovered from the arrays they are saved as. A training job with Adafactor that is started any number of times and killed at any moment, also while it writes a file, has the parameters and accumulators that the Trainer computes from the initial ones with the first k batches. An inference job that restores the latest checkpoint of such a job has exactly these parameters, in the dtype asked for. An empty dict among the parameters is lost in the first step.", "quantifier": "all parameter trees, shapes, factorization rules, hyper parameters with and without momentum, gradients, learning rates, clipping thresholds, histories of starts and kills", "why_tests_cant": "quantifies over all parameter trees, over gradients and learning rates at every step and over histories of kills; tests run a few steps on one tree.", "anchors": ["t5x/adafactor.py:Adafactor.apply_gradient", "t5x/adafactor.py:Adafactor.init_state", "t5x/adafactor.py:Adafactor.apply_param_gradient", "t5x/optimizers.py:Optimizer.apply_gradient", "t5x/train_state.py:FlaxOptimTrainState.apply_gradient", "t5x/train.py:train"]}
{"id": "C129", "title": "What the file with the variables of the model lists", "statement": "log_model_info on host 0 writes one line for each array, and for each None, among the parameters, in the order of the components of their paths; then the total number of parameters, which is the sum of the sizes in these lines, a blank line, and one line for each array or None of the optimizer state. A line has the name, the size and the shape of its own variable, the partition spec of its own path, and the names of the dimensions if there is a name for each of them. Empty dicts give no line. Without any parameter it raises a TypeError. On the other hosts it writes nothing and does not fail.", "quantifier": "all nested state dicts in any order of the keys, shapes, logical axis names and partition specs", "why_tests_cant": "quantifies over all state trees; four trees are matched by position, and tests look at one tree.", "anchors": ["t5x/utils.py:log_model_info", "t5x/state_utils.py:get_name_tree"]}
{"id": "C130", "title": "Binary search and top-k and top-p masks on arrays of any rank", "statement": "int32_bsearch and float32_bsearch with a batch shape of any rank return, for every element of the batch, the largest int32 or finite float32 at which the question about this element is answered False. topk_mask and topp_mask on an array of any rank succeed, keep the shape, and treat each row along the last axis as they treat a single row: an entry is kept by topk_mask iff fewer than k entries of its own row are larger, and in each row topp_mask keeps the most probable entries whose mass reaches p and no more than needed. A NaN or an infinity in one row has no effect on the other rows.", "quantifier": "all ranks from 1, all shapes also with empty axes, all bit patterns of float32, all k >= 1, p, replacement values and softmax functions", "why_tests_cant": "quantifies over all ranks and shapes; axes are swapped before the loops and thresholds are broadcast along an axis that depends on the rank, which goes wrong only for some shapes; tests use matrices.", "anchors": ["t5x/binary_search.py:int32_bsearch", "t5x/binary_search.py:float32_bsearch", "t5x/binary_search.py:topk_mask", "t5x/binary_search.py:topp_mask"]}
{"id": "C131", "title": "The logged metrics by which SaveBestCheckpointer keeps checkpoints", "statement": "populate_metrics_for_steps for a metric 'run/tag' gives each of the steps asked for the value that was logged last for this step with this tag in the event files of the directory 'run', also after a job was restarted and logged some steps again, and no value to other steps; directories that are no prefix of the metric's name have no effect. SaveBestCheckpointer then removes no checkpoint whose last logged value is better than that of an eligible one that stays. The Orbax manager gives each checkpoint that it lists the value logged last for its step before it decides what to remove, and leaves the metrics of the others as they were. If a directory above that of the run has event files and is visited first, the run is hidden and no step has a value.", "quantifier": "all metric names, also with several slashes in run and tag, directories, sequences of events, steps, histories of saves, pins and crashes", "why_tests_cant": "quantifies over all names and over all sequences of events; how the name is split depends on which directories exist.", "anchors": ["t5x/checkpoints.py:populate_metrics_for_steps", "t5x/checkpoints.py:SaveBestCheckpointer._remove_old_checkpoints", "t5x/checkpoints.py:OrbaxCheckpointManagerInterface._CheckpointManagerImpl._get_old_steps_to_remove"]}
{"id": "C132", "title": "Inference evaluation during training and the inference job on the checkpoint", "statement": "Whatever number of states of one model InferenceEvaluator.evaluate is called with, one after the other, each result is that of a fresh evaluator on this state alone; decoding uses the keys that follow from PRNGKey(0) in every call, and all hosts run the same functions while only the first computes metrics. The scores it gives to the examples at a step are those that an inference job writes later for the checkpoint of that step, whatever was killed and restarted, wherever the files were copied, and whatever batch size and number of shards the inference job has, if no cast is asked for. The axes are looked at in the first call only: one evaluator for two trees of parameters gives an error.", "quantifier": "all sequences of calls, states, models, hosts, data sets, batch sizes and numbers of shards, histories of training jobs with kills and restarts", "why_tests_cant": "quantifies over all sequences of evaluations with a cache between them, and relates two programs through the files of a third.", "anchors": ["t5x/eval.py:InferenceEvaluator.evaluate", "t5x/utils.py:get_infer_fn", "t5x/infer.py:infer", "t5x/train.py:train"]}
{"id": "C133", "title": "Jobs that train with an optax optimizer", "statement": "OptaxWrapper.apply_gradient with parameters and a state like the initial ones raises no error; every new parameter is the sum of the old one and of the update with the same name, in the shape and dtype of the old one whatever the dtype of the update. The Trainer's learning rate has no effect: two trainers that differ in learning_rate_fn only compute the same train states (though they log different learning rates). A training job that is started any number of times and killed at any moment has the parameters and the whole optimizer state (momenta, counts of schedules, states without arrays) that the Trainer computes with the first k batches, and an inference job on its latest checkpoint has these parameters.", "quantifier": "all optax transformations that keep the structure of their state and give updates of the parameters' shapes, all parameters, gradients, batches, dtypes, histories of kills and restarts", "why_tests_cant": "quantifies over all transformations and executions; optax states are rebuilt from what checkpoints keep of them, which has no empty states.", "anchors": ["t5x/optimizers.py:OptaxWrapper.apply_gradient", "t5x/optimizers.py:OptaxWrapper.init_state", "t5x/trainer.py:train_with_lr", "t5x/train_state.py:FlaxOptimTrainState.apply_gradient"]}
{"id": "C134", "title": "Training with MultiOptimizer over many steps", "statement": "From the initial state and with one set of hyper-parameters per optimizer in each step, any number of steps of MultiOptimizer raise no error. The parameters that no traversal selects keep their initial values and have the state None. The parameters that an optimizer selects, and their states, are at the end what this optimizer computes when it trains them alone with its own initial state, hyper-parameters and gradients; so they do not depend on the other optimizers, on their hyper-parameters or on the gradients of the other parameters. Trainer performs such steps, with the learning rate of the step in the hyper-parameters of every optimizer. The logical axes of the state of a parameter are those that its own optimizer derives.", "quantifier": "all lists of optimizers with non-overlapping traversals whose states are trees like the parameters, all parameters, sequences of gradients and hyper-parameters, numbers of steps", "why_tests_cant": "quantifies over all sequences of steps and over all optimizers; the tree is taken apart and put together in every step, tests look at one step.", "anchors": ["t5x/optimizers.py:MultiOptimizer.init_state", "t5x/optimizers.py:MultiOptimizer.apply_gradient", "t5x/optimizers.py:MultiOptimizer.update_hyper_params", "t5x/optimizers.py:MultiOptimizer.derive_logical_axes", "t5x/optimizers.py:MultiOptimizer.set_param_axes"]}
{"id": "C135", "title": "Tasks registered on the fly", "statement": "create_task_from_tfexample_file succeeds exactly if a file matches, the file type is tfrecord and the name of the task is valid and new. It then registers one new task and changes no other; reading it gives one example per record of the files, in their order, with the text of inputs_key as 'inputs' and that of targets_key, or the empty text without one, as 'targets', and fails if a record lacks one of them. Without task_id different paths or keys hash different texts if none has a colon; with colons two different calls can get the same name for every hash, and the second fails. A second call for the same paths and keys fails, also with other features, unless it is given another task_id. get_seqio_task_from_examples registers and returns the task of the given examples; with add_to_registry=False it makes no task and fails, or returns whatever has the name already.", "quantifier": "all paths, keys, records, hash functions, contents of the registries", "why_tests_cant": "quantifies over all records and over all pairs of calls; the uniqueness of names is a claim about all pairs of arguments.", "anchors": ["t5x/infer.py:create_task_from_tfexample_file", "t5x/interactive_model.py:get_seqio_task_from_examples"]}
{"id": "C136", "title": "Only evaluating with the training script", "statement": "If total_steps is the step of the restored checkpoint, train makes the evaluations asked for by run_eval_before_training, saves the state if checkpoints are wanted and not there already, and returns the restored state without a step of training, whatever actions answer. If total_steps is below that step, train raises a ValueError, but only after these evaluations and this save. With relative_steps neither happens. The configuration that get_gin_config_from_interactive_model writes for EVALUATION therefore ends without error for a model at step 0 only; for each checkpoint of a trained model the run evaluates, saves a checkpoint, and fails.", "quantifier": "all configurations whose periods fit together or are unset, restored steps, answers of actions", "why_tests_cant": "quantifies over all configurations and over all restored steps.", "anchors": ["t5x/train.py:train", "t5x/interactive_model.py:get_gin_config_from_interactive_model"]}
{"id": "C137", "title": "The batches that the training step is compiled for", "statement": "On every host and mesh, train compiles the training step for batches of exactly the shapes that it trains on, those of the global batch, in which the rows of all shards find place. precompile initialises the variables from the same shapes but lowers the step for the shapes of one shard: it is the step of training if and only if there is one shard, that is, if every host has every row of the batch.", "quantifier": "all meshes whose hosts own equal boxes, data axes, batch sizes, features", "why_tests_cant": "quantifies over all meshes and batch sizes; tests run on one host.", "anchors": ["t5x/precompile.py:precompile", "t5x/train.py:train", "t5x/utils.py:prepare_train_iter"]}
{"id": "C138", "title": "limits on the number of decoding steps", "statement": "temperature_sample lets every decode of a row hold at most as many tokens as its prompt and max_decode_steps make, and at most as many as the row has positions. A positive max_decode_steps_hard_limit caps max_decode_steps and does nothing without it. Asking for more steps than positions fails exactly when the number is known while tracing. A vector with one number for each row limits each row by its own number when there is one decode for each row; with several decodes and two rows or more the call fails.", "quantifier": "all batches, row lengths, numbers of decodes, numbers or vectors of steps, hard limits, traced or not", "why_tests_cant": "quantifies over all batches and limits; the tests try a few scalar limits and never a vector with several decodes.", "anchors": ["t5x/decoding.py:temperature_sample", "t5x/decoding.py:_temperature_sample_single_trial"]}
