{"id": "C01", "title": "Range-image delta compression is lossless on the quantisation grid", "statement": "For every accepted range image and precision, decompress(compress(x, q)) has the shape of x and every cell equals the nearest multiple of the channel's precision (so the error is at most half the precision), including images that are all zero, start with zero, or contain cells that round to zero.", "quantifier": "every image shape with at least one cell, every cell value, every positive per-channel precision", "why_tests_cant": "Unit tests round-trip a few random images; the claim is about every zero pattern and every value, including patterns that change where a run starts.", "anchors": ["src/waymo_open_dataset/utils/compression/delta_encoder.py:compress", "src/waymo_open_dataset/utils/compression/delta_encoder.py:decompress"]}
{"id": "C02", "title": "Run-length coding of the validity mask is exactly invertible", "statement": "Decoding the run lengths of any non-empty 0/1 mask returns that mask; the run lengths sum to the mask length and only the first of them can be zero.", "quantifier": "every non-empty list of bits", "why_tests_cant": "The number of masks is exponential in the image size; a test sees a handful of them.", "anchors": ["src/waymo_open_dataset/utils/compression/delta_encoder.py:_rlencode", "src/waymo_open_dataset/utils/compression/delta_encoder.py:_rldecode"]}
{"id": "C03", "title": "Compression accepts exactly the documented precisions and sizes", "statement": "compress raises ValueError if and only if a scalar precision is not positive, a precision list has the wrong length or a non-positive entry, or a dimension exceeds 65535; otherwise it returns a stream that decompress accepts.", "quantifier": "every precision argument and image shape", "why_tests_cant": "Decision logic over an unbounded domain of lists and sizes.", "anchors": ["src/waymo_open_dataset/utils/compression/delta_encoder.py:compress", "src/waymo_open_dataset/utils/compression/delta_encoder.py:_compute_metadata"]}
{"id": "C04", "title": "Tiling a picture and combining the tiles gives back the picture", "statement": "For every image and tile size for which extract_tiles is defined, combine_tiles(extract_tiles(img)) equals img, every tile is exactly tile_size by tile_size, and padding pixels are mirror copies of image pixels.", "quantifier": "every image height, width, content and tile size with a legal reflect padding", "why_tests_cant": "Round trip over all sizes; off-by-one errors hide in sizes that are not multiples of the tile.", "anchors": ["src/waymo_open_dataset/utils/compression/tiling.py:extract_tiles", "src/waymo_open_dataset/utils/compression/tiling.py:combine_tiles"]}
{"id": "C05", "title": "Uniform quantisation in the embedding codec is accurate to half a step and clamps", "statement": "For a positive quantisation factor every code is an int32; a coefficient within factor times the int32 range comes back within half a factor; one beyond the range comes back as the nearest end of the range; a de-quantised code is quantised to the same code.", "quantifier": "every coefficient and every positive quantisation factor", "why_tests_cant": "Holds for all reals; a test samples a few.", "anchors": ["src/waymo_open_dataset/utils/compression/pca_codec.py:_quantize", "src/waymo_open_dataset/utils/compression/pca_codec.py:_inv_quantize"]}
{"id": "C06", "title": "A component survives the trip through its table row", "statement": "For every component class whose fields are distinct, from_dict(to_flatten_dict(c)) returns a component equal to c, for every nesting depth and every mixture of scalar, repeated, optional and nested-dataclass fields.", "quantifier": "every component class shape and every instance of it", "why_tests_cant": "Classes are open ended (users add components); tests cover the shipped ones with one value each.", "anchors": ["src/waymo_open_dataset/v2/component.py:Component.to_flatten_dict", "src/waymo_open_dataset/v2/component.py:Component.from_dict", "src/waymo_open_dataset/v2/component.py:flatten_dict", "src/waymo_open_dataset/v2/component.py:unflatten_dict"]}
{"id": "C07", "title": "A component's schema lists exactly the columns its rows have", "statement": "The column names produced by Component.schema() are those produced by to_flatten_dict on any instance whose key is set, in the same order, without duplicates, and column names of two different components never coincide unless they are key columns.", "quantifier": "every component class and instance", "why_tests_cant": "Agreement of two recursive functions over all class shapes.", "anchors": ["src/waymo_open_dataset/v2/component.py:Component.schema", "src/waymo_open_dataset/v2/component.py:flatten_arrow_types", "src/waymo_open_dataset/v2/component.py:_column_name"]}
{"id": "C08", "title": "Merging two component tables is the relational join they document", "statement": "merge(left, right) joins on all common key columns; a row pair is in the result exactly when its keys agree, and rows without partner are kept exactly on the nullable side(s); no row is invented and non-key values are copied unchanged.", "quantifier": "every pair of tables, every nullable setting", "why_tests_cant": "Tests use three or four rows; the claim covers duplicates, missing keys and empty tables.", "anchors": ["src/waymo_open_dataset/v2/dataframe_utils.py:merge", "src/waymo_open_dataset/v2/dataframe_utils.py:_how"]}
{"id": "C09", "title": "The assignment solver always finishes and returns an optimal assignment", "statement": "For every square non-negative integer weight matrix the solver terminates without hitting any of its fatal checks, returns a permutation, and no other permutation has a larger total weight.", "quantifier": "every matrix size and every weight matrix", "why_tests_cant": "Optimality over n! permutations and absence of fatal checks on every path cannot be enumerated.", "anchors": ["src/waymo_open_dataset/metrics/hungarian.cc:Hungarian", "src/waymo_open_dataset/metrics/hungarian.cc:AugmentMatching", "src/waymo_open_dataset/metrics/hungarian.cc:ImproveFeasibleLabeling", "src/waymo_open_dataset/metrics/hungarian.h"]}
{"id": "C10", "title": "Hungarian matching of predictions to ground truths is a consistent, optimal, thresholded one-to-one matching", "statement": "Match returns two mutually inverse partial maps between the prediction subset and the ground-truth subset; every matched pair has an IoU at or above the type's threshold (and hence the same type if that threshold is positive); no other such matching has larger total quantised IoU.", "quantifier": "every prediction set, ground-truth set, subset selection, threshold vector and IoU function", "why_tests_cant": "The space of IoU matrices is infinite; optimality and consistency are global statements.", "anchors": ["src/waymo_open_dataset/metrics/matcher.cc:HungarianMatcher::Match", "src/waymo_open_dataset/metrics/matcher.cc:Matcher::CanMatch"]}
{"id": "C11", "title": "Score-first matching gives each prediction, in score order, its best remaining ground truth", "statement": "ScoreFirstMatcher::Match processes predictions by descending score and matches each with the ground truth of highest quantised IoU among those still free, for every selection of subsets.", "quantifier": "every score vector, IoU function and pair of subsets", "why_tests_cant": "Tests select the full subsets, for which subset positions and object indices coincide.", "anchors": ["src/waymo_open_dataset/metrics/matcher.cc:ScoreFirstMatcher::Match"]}
{"id": "C12", "title": "IoU caching never changes an answer", "statement": "After any sequence of setting predictions, ground truths, subsets and queries, the IoU returned for a pair equals the IoU function applied to the currently set objects (0 for different types).", "quantifier": "every interleaving of setter calls and queries", "why_tests_cant": "Stale-cache bugs depend on call histories, of which there are infinitely many.", "anchors": ["src/waymo_open_dataset/metrics/matcher.cc:Matcher::IoU", "src/waymo_open_dataset/metrics/matcher.h:SetPredictions", "src/waymo_open_dataset/metrics/matcher.h:SetGroundTruths"]}
{"id": "C13", "title": "Tracking evaluation never invents or loses objects", "statement": "After evaluating any history of frames, in every frame each ground truth is counted exactly once as matched or missed, each prediction exactly once as matched or false positive, and the carried identity mapping stays one-to-one.", "quantifier": "every history of frames with distinct ids per frame, every matcher", "why_tests_cant": "Statement over unbounded frame histories with carried state.", "anchors": ["src/waymo_open_dataset/metrics/mot.cc:MOT::Eval", "src/waymo_open_dataset/metrics/mot.cc:MOT::Match", "src/waymo_open_dataset/metrics/mot.cc:MOT::InitializeNewMapping"]}
{"id": "C14", "title": "Mismatches are identity switches and takeovers, relative to the whole history", "statement": "A ground truth holds the prediction id of its latest match for as long as neither of the two is matched again. The mismatches of a frame are the ground truths matched to an id other than the one they hold, plus the matched predictions that are held by a ground truth absent from the frame; the total is the sum over the frames.", "quantifier": "every history of frames", "why_tests_cant": "Depends on the whole history, including objects that vanish and return.", "anchors": ["src/waymo_open_dataset/metrics/mot.cc:MOT::ComputeNumMismatches", "src/waymo_open_dataset/metrics/mot.cc:MOT::Eval"]}
{"id": "C15", "title": "Detection and tracking measurements can be accumulated in any order and grouping", "statement": "Merging per-frame measurement counts is associative and commutative with the empty measurement as unit, so the metric does not depend on how frames are sharded; merging measurements of different breakdowns or cutoffs is refused.", "quantifier": "every list of per-frame measurements and every way of splitting and ordering it", "why_tests_cant": "Sharding order is decided by the runtime.", "anchors": ["src/waymo_open_dataset/metrics/detection_metrics.cc:MergeDetectionMeasurement", "src/waymo_open_dataset/metrics/tracking_metrics.cc:MergeTrackingMeasurement"]}
{"id": "C16", "title": "Detection counts are consistent at every score cutoff", "statement": "For every frame, breakdown and cutoff, true positives plus false positives never exceed the predictions above the cutoff that are in the shard, and true positives plus false negatives equal the ground truths of the shard that are counted at the difficulty level.", "quantifier": "every frame, matching result, shard and cutoff", "why_tests_cant": "Counting invariants over all matchings.", "anchors": ["src/waymo_open_dataset/metrics/detection_metrics.cc:MeasurementFromMatchingResult", "src/waymo_open_dataset/metrics/metrics_utils.cc:IsTP", "src/waymo_open_dataset/metrics/metrics_utils.cc:IsFP", "src/waymo_open_dataset/metrics/metrics_utils.cc:IsDetectionFN"]}
{"id": "C17", "title": "Every breakdown puts each object into one valid shard", "statement": "For each breakdown generator the shard of an object lies in [0, number of shards), two objects of different type, range band, size class or speed class (as documented) are in different shards, and the human-readable shard names are pairwise different.", "quantifier": "every object, every generator", "why_tests_cant": "Real-valued ranges and all object types.", "anchors": ["src/waymo_open_dataset/metrics/breakdown_generator.cc"]}
{"id": "C18", "title": "Subsets handed to the matcher are a partition of what the breakdown selects", "statement": "BuildSubsets returns, per breakdown shard, exactly the indices of predictions/ground truths of that shard, each index once, so no object is evaluated twice in one breakdown and none is dropped.", "quantifier": "every set of objects and every configuration", "why_tests_cant": "Partition property over all sets.", "anchors": ["src/waymo_open_dataset/metrics/metrics_utils.cc:BuildSubsets"]}
{"id": "C19", "title": "Score cutoffs are sorted, within range and cover the scores", "statement": "For sorted scores in [0,1] DecideScoreCutoffs returns exactly the requested number of non-decreasing cutoffs in [0,1] and never reads outside the score array. With more scores than cutoffs the cutoffs are the scores at almost equally spaced ranks (gaps differ by at most one) starting with the smallest score, followed by 1; otherwise they are evenly spaced from 0 to 1. The estimate for detection depends only on the multiset of all scores.", "quantifier": "every list of scores and every positive requested count", "why_tests_cant": "Index arithmetic over all sizes.", "anchors": ["src/waymo_open_dataset/metrics/metrics_utils.cc:DecideScoreCutoffs"]}
{"id": "C20", "title": "Average precision is a number in [0,1], monotone in precision, independent of the order of the operating points", "statement": "ComputeMeanAveragePrecision of any precisions and recalls in [0,1] is in [0,1]; permuting the operating points does not change it; raising a precision never lowers it; it never exceeds the largest recall and equals it when all precisions are 1. In the metrics of a breakdown every recall and precision is the documented quotient in [0,1] and the heading- and affinity-weighted average precisions never exceed the plain one.", "quantifier": "every list of precision/recall pairs and every recall delta", "why_tests_cant": "Real-valued lists of arbitrary length.", "anchors": ["src/waymo_open_dataset/metrics/metrics_utils.cc:ComputeMeanAveragePrecision"]}
{"id": "C21", "title": "Tracking score cut-off estimation uses the predictions of the frame it is visiting", "statement": "EstimateScoreCutoffs collects the score of every prediction of every frame of every scene that is of the considered type.", "quantifier": "every list of scenes, frames and predictions", "why_tests_cant": "Needs all combinations of scene sizes; a test with one scene or equal sizes passes by luck.", "anchors": ["src/waymo_open_dataset/metrics/tracking_metrics.cc:EstimateScoreCutoffs"]}
{"id": "C22", "title": "Segmentation IoU accumulates and is bounded", "statement": "Merging per-frame segmentation measurements and computing IoU equals computing it on the concatenated labels, in any order; every per-class IoU and the mean lie in [0,1].", "quantifier": "every sequence of frames and label pairs", "why_tests_cant": "All sharding orders and label arrays.", "anchors": ["src/waymo_open_dataset/metrics/segmentation_metrics.cc:ComputeIOU", "src/waymo_open_dataset/metrics/segmentation_metrics.cc:MergeResults"]}
{"id": "C23", "title": "Axis-aligned and heading-free IoU is symmetric, in [0,1] and 1 exactly on equal boxes", "statement": "The IoU of two boxes with positive extents is symmetric, between 0 and 1, 1 iff the boxes are equal, 0 iff their interiors are disjoint.", "quantifier": "every pair of boxes with positive extents", "why_tests_cant": "Real-valued geometry.", "anchors": ["src/waymo_open_dataset/metrics/iou.cc:ComputeIoU"]}
{"id": "C24", "title": "A validated motion-metrics configuration makes every later time index legal", "statement": "If ValidateConfig accepts a configuration then each measurement step addresses an existing prediction step and ground-truth step.", "quantifier": "every configuration", "why_tests_cant": "Boundary of an inequality over all configurations.", "anchors": ["src/waymo_open_dataset/metrics/motion_metrics.cc:ValidateConfig", "src/waymo_open_dataset/metrics/motion_metrics.cc:ComputeAllMetrics"]}
{"id": "C25", "title": "Motion metrics are computed for every joint prediction of the scenario", "statement": "ComputeMotionMetrics adds the contribution of each prediction set independently of the others; in particular a set without predictions does not suppress the sets after it.", "quantifier": "every list of multi-modal predictions", "why_tests_cant": "Depends on where in the list the empty set occurs.", "anchors": ["src/waymo_open_dataset/metrics/motion_metrics.cc:ComputeAllMetrics"]}
{"id": "C26", "title": "Motion metric statistics can be accumulated in any order and grouping", "statement": "Accumulating bucketed metric statistics over scenarios is associative and (after sorting samples) order independent, with the empty statistics as unit; means are never computed by dividing by zero.", "quantifier": "every list of scenarios and every split of it", "why_tests_cant": "Sharding order.", "anchors": ["src/waymo_open_dataset/metrics/motion_metrics.cc:BucketedMetricsStats::Accumulate", "src/waymo_open_dataset/metrics/motion_metrics.h:Accumulator"]}
{"id": "C27", "title": "At most one prediction per ground truth counts as true positive in motion mAP and mAP is in [0,1]", "statement": "For every scenario, of the predictions for one object at one step at most one is a true positive; mean average precision is in [0,1] and at most the recall.", "quantifier": "every set of predictions with confidences", "why_tests_cant": "All confidence orders and ties.", "anchors": ["src/waymo_open_dataset/metrics/motion_metrics.cc:ComputeMeanAveragePrecision", "src/waymo_open_dataset/metrics/motion_metrics.cc:ComputePrCurve"]}
{"id": "C28", "title": "minADE, minFDE and miss rate are attained minima and never get worse with more predictions", "statement": "minADE/minFDE equal the error of one of the first K predictions and are no larger than any of them; enlarging K never increases minADE, minFDE or miss rate.", "quantifier": "every prediction set and K", "why_tests_cant": "All lists.", "anchors": ["src/waymo_open_dataset/metrics/motion_metrics.cc:ComputeMinAverageDisplacement", "src/waymo_open_dataset/metrics/motion_metrics.cc:ComputeMissRate"]}
{"id": "C29", "title": "The overlap metric reads the most likely trajectory, always within range", "statement": "With at least one trajectory with non-negative confidences and positive total, the trajectory used for overlap has maximal confidence and its index is a real trajectory, although the confidence vector is padded to the maximum number of predictions.", "quantifier": "every confidence vector and maximum", "why_tests_cant": "Padding can only be excluded by an argument over all vectors.", "anchors": ["src/waymo_open_dataset/metrics/motion_metrics.cc:ComputeOverlapRate", "src/waymo_open_dataset/metrics/motion_metrics_utils.cc:GetNormalizedConfidences"]}
{"id": "C30", "title": "Modular arithmetic helpers return the representative in range", "statement": "PositiveModulo(x, y) is in [0, y) and congruent to x for all integers (no overflow) and reals with y > 0; wrapping to [lo, hi) lands in the interval, is idempotent and congruent; NormalizeAngle lands in [-pi, pi).", "quantifier": "all x and all y > 0", "why_tests_cant": "Infinite domain including negative numbers and boundaries.", "anchors": ["src/waymo_open_dataset/math/math_util.h"]}
{"id": "C31", "title": "Heading accuracy is in [0,1], symmetric and insensitive to full turns", "statement": "Heading accuracy of two headings is in [0,1], equals 1 iff the headings agree modulo a full turn and 0 iff they are opposite, and is symmetric.", "quantifier": "all pairs of real headings", "why_tests_cant": "Real-valued angles.", "anchors": ["src/waymo_open_dataset/metrics/metrics_utils.cc:ComputeHeadingAccuracy"]}
{"id": "C32", "title": "Pose matching never uses an object twice", "statement": "In the association produced for a frame each ground-truth index and each prediction index occurs at most once.", "quantifier": "every list of ground truth and predicted objects with the same, positive number of key points, and every threshold up to 1e10 (the placeholder the code uses for pairs that are no candidates)", "why_tests_cant": "All assignments of both matching stages.", "anchors": ["src/waymo_open_dataset/metrics/python/keypoint_metrics.py:MeanErrorMatcher.matching_ids", "src/waymo_open_dataset/metrics/python/keypoint_metrics.py:mean_error_matching"]}
{"id": "C33", "title": "Re-ordering objects for pose metrics accounts for every visible object exactly once", "statement": "After reorder the two object lists have equal length; each visible ground truth occurs exactly once, either against its matched prediction or against an empty one; each unmatched prediction with visible key points occurs once against an empty ground truth.", "quantifier": "every association and visibility mask", "why_tests_cant": "All index sets.", "anchors": ["src/waymo_open_dataset/metrics/python/keypoint_metrics.py:BaseMatcher.reorder", "src/waymo_open_dataset/metrics/python/keypoint_metrics.py:missing_ids"]}
{"id": "C34", "title": "Pose estimation error is bounded and classifies key points correctly", "statement": "Per key point the error is the clipped distance if both are visible, the penalty if exactly one is visible, and not counted if none is; thus the metric lies between 0 and the penalty.", "quantifier": "all visibilities, distances, thresholds", "why_tests_cant": "All cases and reals.", "anchors": ["src/waymo_open_dataset/metrics/python/keypoint_metrics.py:_pose_estimation_error", "src/waymo_open_dataset/metrics/python/keypoint_metrics.py:PoseEstimationMetric"]}
{"id": "C35", "title": "Box membership and box displacement agree", "statement": "A point that the 3D box utilities place inside an upright box has zero box displacement in the key point metrics and conversely.", "quantifier": "every upright box and point", "why_tests_cant": "Two modules must share a rotation convention for all headings.", "anchors": ["src/waymo_open_dataset/metrics/python/keypoint_metrics.py:box_displacement", "src/waymo_open_dataset/utils/box_utils.py:is_within_box_3d"]}
{"id": "C36", "title": "Rater trajectories are padded and truncated without losing alignment", "statement": "The processed array has exactly the documented shape; entry i,j is trajectory j of rater batch i truncated to the target length and extended with its last point; labels stay attached to their trajectories.", "quantifier": "every ragged list of trajectories and labels", "why_tests_cant": "All lengths shorter and longer than the target.", "anchors": ["src/waymo_open_dataset/metrics/python/rater_feedback_utils.py:process_rater_specified_trajectories"]}
{"id": "C37", "title": "The rater feedback score is bounded, has a floor and rewards closeness", "statement": "With labels in [0,10] and probabilities summing to one the score is in [0,10]; it is at least the floor when no prediction is in a trust region and at least the label of a rated trajectory whose trust region the prediction is in; it depends on the set of rated trajectories only; a prediction closer to every rated trajectory never scores less.", "quantifier": "all predictions, labels, thresholds and probabilities", "why_tests_cant": "Real-valued inputs.", "anchors": ["src/waymo_open_dataset/metrics/python/rater_feedback_utils.py:get_rater_feedback_score"]}
{"id": "C38", "title": "Panoptic labels encode and decode losslessly", "statement": "Decoding an encoded pair gives back semantic and instance label whenever instance < divisor and the result fits 32 bits; encoding a decoded label gives back the label; non-positive divisors are rejected.", "quantifier": "all label arrays and divisors", "why_tests_cant": "All integers.", "anchors": ["src/waymo_open_dataset/utils/camera_segmentation_utils.py:encode_semantic_and_instance_labels_to_panoptic_label", "src/waymo_open_dataset/utils/camera_segmentation_utils.py:decode_semantic_and_instance_labels_from_panoptic_label"]}
{"id": "C39", "title": "Global instance ids of different sequences never collide", "statement": "Remapping assigns different global ids to instances of different sequences and keeps ids within a sequence distinct.", "quantifier": "every list of frames with their local-to-global maps", "why_tests_cant": "Depends on the combination of id sets of all sequences.", "anchors": ["src/waymo_open_dataset/utils/camera_segmentation_utils.py:_remap_global_ids"]}
{"id": "C40", "title": "Multi-frame panoptic decoding preserves the semantic class and keeps instances distinct", "statement": "Decoding several frames into a common divisor leaves each pixel's semantic class unchanged, or raises the documented error.", "quantifier": "every list of frames", "why_tests_cant": "Depends on the largest instance id relative to the divisor.", "anchors": ["src/waymo_open_dataset/utils/camera_segmentation_utils.py:decode_multi_frame_panoptic_labels_from_segmentation_labels"]}
{"id": "C41", "title": "Saving panoptic labels and decoding them returns the labels", "statement": "decode(save(label)) returns the original semantic and global instance labels for every panoptic array whose ids fit.", "quantifier": "every panoptic array", "why_tests_cant": "All label arrays.", "anchors": ["src/waymo_open_dataset/utils/camera_segmentation_utils.py:save_panoptic_label_to_proto"]}
{"id": "C42", "title": "Packed lidar features decode to the encoded features, sort by range, and pixels keep the features of their nearest point", "statement": "decode_lidar_features(encode_lidar_features(r,i,e)) returns range and elongation less than one grid step below the input and the upper half of the bits of the intensity, comparing packed codes compares ranges first, and out-of-range features are rejected; every pixel of a range image built with features has the features of one nearest point that falls into it, or zeros.", "quantifier": "all ranges, intensities and elongations, and all point clouds", "why_tests_cant": "2^48 combinations, and all sets of points.", "anchors": ["src/waymo_open_dataset/utils/range_image_utils.py:encode_lidar_features", "src/waymo_open_dataset/utils/range_image_utils.py:decode_lidar_features", "src/waymo_open_dataset/utils/range_image_utils.py:build_range_image_from_point_cloud"]}
{"id": "C43", "title": "Scatter with pooling puts the pooled value of all points of a cell into that cell and zero elsewhere", "statement": "For any list of indices inside of the image, cell (r,c) of the result is the pool of exactly the values indexed (r,c), or 0 if there are none, independent of the order of the points.", "quantifier": "every list of indices inside of the image and of values", "why_tests_cant": "All collision patterns.", "anchors": ["src/waymo_open_dataset/utils/range_image_utils.py:scatter_nd_with_pool"]}
{"id": "C44", "title": "A point measured at a range-image pixel is projected back into that pixel", "statement": "For every extrinsic, list of distinct inclinations below a right angle, width, pixel and positive range, the point extracted from the pixel is projected to the same pixel with the same range, so building a range image from extracted points returns it; every point gets a pixel inside of the image, with the nearest inclination and an azimuth at most half a column away; with pixel poses the point is moved by the pixel pose and back by the frame pose.", "quantifier": "every extrinsic, width, pixel, range and point", "why_tests_cant": "Real-valued angles and all widths.", "anchors": ["src/waymo_open_dataset/utils/range_image_utils.py:compute_range_image_polar", "src/waymo_open_dataset/utils/range_image_utils.py:compute_range_image_cartesian", "src/waymo_open_dataset/utils/range_image_utils.py:extract_point_cloud_from_range_image", "src/waymo_open_dataset/utils/range_image_utils.py:build_range_image_from_point_cloud"]}
{"id": "C45", "title": "Cropping a range image returns the central window shifted as requested", "statement": "crop_range_image returns for each image the new_width columns starting at (width-new_width)//2+shift, unchanged and in order, and raises when new_width is below 1 or above the width, when a window leaves the image, or when there are fewer shifts than images; an image of the width requested is returned as it is.", "quantifier": "every batch, width, new width and shift list", "why_tests_cant": "All sizes.", "anchors": ["src/waymo_open_dataset/utils/range_image_utils.py:crop_range_image"]}
{"id": "C46", "title": "Gathering objects by id returns exactly the requested objects in the requested order", "statement": "gather_objects_by_id returns rows whose ids are the requested list, or raises ValueError when an id is missing or repeated in the source.", "quantifier": "every id list and request list", "why_tests_cant": "All permutations, duplicates, absences.", "anchors": ["src/waymo_open_dataset/utils/trajectory_utils.py:_arg_gather", "src/waymo_open_dataset/utils/trajectory_utils.py:ObjectTrajectories.gather_objects_by_id"]}
{"id": "C47", "title": "A validated joint scene simulates each required object exactly once with complete trajectories", "statement": "validate_joint_scene returns normally iff the scene contains one full-length trajectory for each required object and nothing else.", "quantifier": "every scenario and submission", "why_tests_cant": "All id multisets.", "anchors": ["src/waymo_open_dataset/utils/sim_agents/submission_specs.py:validate_joint_scene"]}
{"id": "C48", "title": "Converting a logged scenario to a joint scene gives a valid submission that reproduces the log", "statement": "scenario_to_joint_scene always passes validation and joint_scene_to_trajectories of it equals the logged trajectories of the sim agents over history and future.", "quantifier": "every scenario with complete tracks", "why_tests_cant": "All scenarios.", "anchors": ["src/waymo_open_dataset/utils/sim_agents/converters.py:scenario_to_joint_scene", "src/waymo_open_dataset/utils/sim_agents/converters.py:joint_scene_to_trajectories"]}
{"id": "C49", "title": "Traffic-light evaluation picks the nearest lane segment", "statement": "The lane segment used for a point minimises the distance from the point to the segment among valid segments.", "quantifier": "every point and set of lane polylines", "why_tests_cant": "Real-valued geometry.", "anchors": ["src/waymo_open_dataset/wdl_limited/sim_agents_metrics/traffic_light_features.py:_get_nearest_lane_segment_index"]}
{"id": "C50", "title": "Time to collision does not depend on how a heading is written", "statement": "Adding a full turn to any heading leaves the time to collision unchanged; the result is always in (0, 5].", "quantifier": "all positions, sizes, headings and speeds", "why_tests_cant": "Headings at the wrap boundary.", "anchors": ["src/waymo_open_dataset/wdl_limited/sim_agents_metrics/interaction_features.py:compute_time_to_collision_with_object_in_front", "src/waymo_open_dataset/wdl_limited/sim_agents_metrics/interaction_features.py:_get_object_following_mask"]}
{"id": "C51", "title": "The signed distance to a road edge depends only on the road edges near the point", "statement": "Adding a further polyline that is nowhere closest does not change the signed distance of a point.", "quantifier": "every set of polylines and point", "why_tests_cant": "Depends on relative lengths of the polylines through padding.", "anchors": ["src/waymo_open_dataset/wdl_limited/sim_agents_metrics/map_metric_features.py:_compute_signed_distance_to_polylines", "src/waymo_open_dataset/wdl_limited/sim_agents_metrics/map_metric_features.py:tensorize_polylines"]}
{"id": "C52", "title": "Kinematic validity marks exactly the steps whose finite differences use only valid steps", "statement": "A speed at step i is valid iff steps i-1 and i+1 exist and are valid; an acceleration iff i-2, i and i+2 exist and are valid, and valid values never contain the padding.", "quantifier": "every validity vector and length", "why_tests_cant": "All lengths and masks.", "anchors": ["src/waymo_open_dataset/wdl_limited/sim_agents_metrics/trajectory_features.py:central_diff", "src/waymo_open_dataset/wdl_limited/sim_agents_metrics/trajectory_features.py:central_logical_and", "src/waymo_open_dataset/wdl_limited/sim_agents_metrics/trajectory_features.py:compute_kinematic_validity"]}
{"id": "C53", "title": "Distance to the nearest object excludes the object itself and invalid objects", "statement": "The reported distance is the minimum over other valid objects of the pairwise distance, for any ordering of evaluated and non-evaluated objects, and the large constant if there are none.", "quantifier": "every scene, mask and validity", "why_tests_cant": "All masks and orders.", "anchors": ["src/waymo_open_dataset/wdl_limited/sim_agents_metrics/interaction_features.py:compute_distance_to_nearest_object"]}
{"id": "C54", "title": "Likelihood estimates are probabilities and do not mix agents or steps", "statement": "Every sample scored by the histogram estimator gets a probability in (0,1]; probabilities over bins sum to one; the score of an agent/step depends on that agent's (and step's, unless pooled) simulated samples only, and the flatten/unflatten of tensors returns each score to its own place.", "quantifier": "all sample tensors and shapes", "why_tests_cant": "Index permutations over all tensor shapes.", "anchors": ["src/waymo_open_dataset/wdl_limited/sim_agents_metrics/estimators.py:histogram_estimate", "src/waymo_open_dataset/wdl_limited/sim_agents_metrics/estimators.py:log_likelihood_estimate_timeseries"]}
{"id": "C55", "title": "The realism meta-metric is a weighted average in [0,1] and aggregation over scenarios is the mean", "statement": "With non-negative weights summing to one and likelihoods in [0,1] the meta-metric is in [0,1]; bucketed metrics are weighted means of their members; zero-weight buckets are refused.", "quantifier": "all weights and likelihoods", "why_tests_cant": "Real-valued inputs.", "anchors": ["src/waymo_open_dataset/wdl_limited/sim_agents_metrics/metrics.py:_compute_metametric", "src/waymo_open_dataset/wdl_limited/sim_agents_metrics/metrics.py:aggregate_metrics_to_buckets"]}
{"id": "C56", "title": "Rigid transforms compose and invert, and box membership is invariant under them", "statement": "Transforming a point by a pose and then back returns the point; box membership is invariant under a common yaw rotation and translation of box and point; points counted per box are exactly the members.", "quantifier": "all poses, points and boxes", "why_tests_cant": "Real-valued geometry.", "anchors": ["src/waymo_open_dataset/utils/transform_utils.py", "src/waymo_open_dataset/utils/box_utils.py:transform_point", "src/waymo_open_dataset/utils/box_utils.py:is_within_box_3d"]}
{"id": "C57", "title": "Compressing an image leaves the caller's array unchanged", "statement": "After compress(x, q) returns or raises, x holds the values it held before.", "quantifier": "every image and precision", "why_tests_cant": "A test that compares against a copy would catch it only if written; the existing tests pass a temporary.", "anchors": ["src/waymo_open_dataset/utils/compression/delta_encoder.py:compress"]}
{"id": "C58", "title": "The details of a tracking measurement list exactly the objects that were counted", "statement": "For every frame the details list the matched pairs, the counted false positives and the counted misses; the lengths of the lists equal the counters of the frame.", "quantifier": "every history of frames", "why_tests_cant": "Needs frames with no-label zones and difficulty levels in the right combination.", "anchors": ["src/waymo_open_dataset/metrics/mot.cc:MOT::Eval", "src/waymo_open_dataset/protos/metrics.proto:TrackingMeasurement"]}
{"id": "C59", "title": "The reported tracking accuracy is the best over the score cutoffs and consistent with its parts", "statement": "Of the measurements of all score cutoffs the reported one has the largest MOTA, and MOTA is one minus the reported miss, false positive and mismatch ratios.", "quantifier": "every non-empty list of measurements", "why_tests_cant": "Needs measurements with non-positive accuracy at every cutoff.", "anchors": ["src/waymo_open_dataset/metrics/tracking_metrics.cc:ToTrackingMetrics"]}
{"id": "C60", "title": "Every change of the prediction id of a ground truth is counted as a mismatch, and nothing else is", "statement": "The mismatches of a frame are exactly the ground truths matched to an id different from the id of their most recent match.", "quantifier": "every history of frames", "why_tests_cant": "Depends on objects that lose their id to another object before they return.", "anchors": ["src/waymo_open_dataset/metrics/mot.cc:MOT::ComputeNumMismatches", "src/waymo_open_dataset/metrics/mot.cc:MOT::Eval"]}
{"id": "C61", "title": "Pairs below the minimum heading accuracy are treated as false matches", "statement": "A prediction and a ground truth matched with a heading accuracy not above min_heading_accuracy are 'considered as false matching': the pair is no true positive and its objects still enter the counts as a false positive and a false negative.", "quantifier": "every frame and minimum heading accuracy", "why_tests_cant": "Needs pairs with good overlap and bad heading in every combination with levels and breakdowns.", "anchors": ["src/waymo_open_dataset/metrics/detection_metrics.cc:ComputeDetectionMeasurementFromMatchingResult", "src/waymo_open_dataset/protos/metrics.proto:Config.min_heading_accuracy"]}
{"id": "C62", "title": "Breakdown names of the C++ and the Python code agree and identify a breakdown", "statement": "For every configuration both implementations return the same list of names, one per generator, shard and difficulty level in the order of the measurements, and no name occurs twice if the generators are distinct.", "quantifier": "every configuration of known generators and levels", "why_tests_cant": "There are too many combinations of generators and levels to enumerate in a test.", "anchors": ["src/waymo_open_dataset/metrics/config_util.cc:GetBreakdownNamesFromConfig", "src/waymo_open_dataset/metrics/python/config_util_py.py:get_breakdown_names_from_config", "src/waymo_open_dataset/metrics/breakdown_generator.cc:ShardName"]}
{"id": "C63", "title": "A ground truth takes part in the matching of its own shard", "statement": "For generators that divide only the ground truths, the shard of an object is among the shards in whose matching it takes part.", "quantifier": "every object", "why_tests_cant": "Needs objects whose annotated camera disagrees with their position.", "anchors": ["src/waymo_open_dataset/metrics/breakdown_generator.cc:BreakdownGeneratorCamera", "src/waymo_open_dataset/metrics/breakdown_generator.cc:BreakdownGeneratorVelocity"]}
{"id": "C64", "title": "Quantisation factors from buckets give codes within the number of buckets", "statement": "For a column of coefficients with a non-zero value, bucketed_quantization returns a positive factor with which every coefficient of the column gets a code between minus and plus the number of buckets, and the coefficient of largest magnitude gets an extreme code. The documentation has no exception for a column of zeros, for which the factor is 0 and quantising divides by zero.", "quantifier": "every data column and every positive number of buckets", "why_tests_cant": "All columns and bucket counts, and the degenerate column.", "anchors": ["src/waymo_open_dataset/utils/compression/pca_codec.py:bucketed_quantization", "src/waymo_open_dataset/utils/compression/pca_codec.py:Codec._quantize"]}
{"id": "C65", "title": "Decoding an encoded embedding image gives the image up to the quantisation error", "statement": "For every image that can be tiled and every codec whose coefficients stay in range, encode succeeds with one code per tile and the channel means as reference, and decode returns an image of the same shape; at every pixel and channel it differs from the projection of the image onto the components by at most std times the sum over components of |vector entry| * factor / 2. With as many orthonormal components as tile values the projection is the image itself.", "quantifier": "every image size, tile size, number of channels and components, parameters and content", "why_tests_cant": "All shapes and contents; tests use one fitted codec.", "anchors": ["src/waymo_open_dataset/utils/compression/pca_codec.py:Codec.encode", "src/waymo_open_dataset/utils/compression/pca_codec.py:Codec.decode"]}
{"id": "C66", "title": "A component can be read from a merged row", "statement": "from_dict on any dictionary that contains a component's columns, such as a row of a table merged from several of the shipped components, returns the component that was stored, whatever other columns are present and in whatever order.", "quantifier": "every shipped component class, every instance, every set of further columns of shipped components", "why_tests_cant": "The number of combinations of tables is exponential; a clash of column names shows only in some of them.", "anchors": ["src/waymo_open_dataset/v2/component.py:Component.from_dict", "src/waymo_open_dataset/v2/component.py:unflatten_dict", "src/waymo_open_dataset/v2/component.py:_remove_prefix"]}
{"id": "C67", "title": "Axis-aligned boxes behave as sets of points and the box tree finds exactly the overlapping boxes", "statement": "Overlap, containment, distance, union and intersection area of axis-aligned boxes are those of their point sets; querying the tree built from boxes returns each other overlapping box exactly once.", "quantifier": "every pair of boxes with non-negative extents, every non-empty list of boxes and index", "why_tests_cant": "The tree only recurses beyond four boxes and prunes by bounds, so small examples never reach the code; areas range over the reals.", "anchors": ["src/waymo_open_dataset/math/aabox2d.h:AABox2d", "src/waymo_open_dataset/math/aabox2d.h:AABox2dTree"]}
{"id": "C68", "title": "Longitudinal affinity measures only range error and alignment moves a prediction to the nearest point of its line of sight", "statement": "The affinity lies in [0,1], is one minus the range error relative to the tolerance and ignores lateral displacement; alignment leaves the shape of a box unchanged, never increases the distance to the ground truth, and range alignment reaches the minimum along the line of sight; the restricted kinds move exactly the predictions their documentation names.", "quantifier": "every prediction, ground truth, sensor location and tolerance (prediction and ground truth not at the sensor)", "why_tests_cant": "Optimality over a continuum of positions cannot be sampled.", "anchors": ["src/waymo_open_dataset/metrics/iou.cc:ComputeLongitudinalAffinity", "src/waymo_open_dataset/metrics/iou.cc:AlignedPredictionBox", "src/waymo_open_dataset/metrics/iou.cc:ComputeLetIoU"]}
{"id": "C69", "title": "Motion metrics do not depend on the world frame", "statement": "Rotating and translating a scenario together with its predictions (positions, headings and velocities alike) changes no motion metric: minimum displacement errors, miss rate, precision samples and overlap rate stay the same.", "quantifier": "every scenario, prediction with as many x as y coordinates, configuration and rigid motion of the plane", "why_tests_cant": "Rotations form a continuum, and the failing case needs an object whose consecutive predicted positions coincide.", "anchors": ["src/waymo_open_dataset/metrics/motion_metrics.cc:ComputeMinAverageDisplacement", "src/waymo_open_dataset/metrics/motion_metrics.cc:ComputeMissRate", "src/waymo_open_dataset/metrics/motion_metrics.cc:ComputeOverlapRate", "src/waymo_open_dataset/metrics/motion_metrics_utils.cc:PredictionToPolygon", "src/waymo_open_dataset/metrics/motion_metrics_utils.cc:ClassifyTrack"]}
{"id": "C70", "title": "The shape of a ground truth trajectory is classified as documented and mirrors swap left and right", "statement": "ClassifyTrack returns exactly one type: stationary for slow trajectories that stay within three metres, straight (left, right) for those that keep their heading up to 30 degrees whatever the number of full turns, otherwise a turn or a U-turn to the side the object ends on; mirroring a trajectory swaps left and right.", "quantifier": "every pair of start and end states", "why_tests_cant": "The branches split a seven-dimensional continuum; headings may differ by any number of full turns.", "anchors": ["src/waymo_open_dataset/metrics/motion_metrics_utils.cc:ClassifyTrack"]}
{"id": "C71", "title": "Box sizes reach the key point metrics on the right axes", "statement": "The size tensor built for a laser object has the length of the box first, then its width, then its height, whichever proto the box comes from.", "quantifier": "every box", "why_tests_cant": "A swap of two axes is invisible for square boxes and for metrics that use the volume only.", "anchors": ["src/waymo_open_dataset/utils/keypoint_data.py:label_box_from_box_proto", "src/waymo_open_dataset/utils/keypoint_data.py:create_laser_box_tensors"]}
{"id": "C72", "title": "The association of poses is optimal", "statement": "Among all associations of candidate pairs the one returned has the smallest pose estimation metric, as documented.", "quantifier": "every set of objects, candidate mask and penalty", "why_tests_cant": "The space of associations is factorial in the number of objects.", "anchors": ["src/waymo_open_dataset/metrics/python/keypoint_metrics.py:mean_error_matching"]}
{"id": "C73", "title": "Key point similarity is a score between 0 and 1", "statement": "Object key point similarity lies in [0,1], is the weighted mean of exp(-d^2/(2(k s)^2)) over the key points labelled in ground truth and prediction, is 1 for a prediction with the right locations, and never falls when predicted key points move closer; tensors built from lists of key points and selections of types hold at every position the key point of the type at that position.", "quantifier": "every list of key points, scales, weights that are not negative and box", "why_tests_cant": "A continuum of locations.", "anchors": ["src/waymo_open_dataset/metrics/python/keypoint_metrics.py:object_keypoint_similarity", "src/waymo_open_dataset/utils/keypoint_data.py:select_subset", "src/waymo_open_dataset/utils/keypoint_data.py:create_laser_keypoints_tensors"]}
{"id": "C74", "title": "Associated poses are close to each other", "statement": "Every pair returned by the official matcher has a visible predicted key point within the configured distance of the ground truth box, and either the ground truth has no visible key point or the mean error of the pair is below that distance.", "quantifier": "every list of objects and threshold up to 1e10", "why_tests_cant": "The pair is chosen by a global optimum over all objects.", "anchors": ["src/waymo_open_dataset/metrics/python/keypoint_metrics.py:MeanErrorMatcher.matching_ids"]}
{"id": "C75", "title": "A camera depth image has the distance of the nearest lidar point in every pixel", "statement": "For every list of lidar points with their camera projections, every rigid camera extrinsic and camera, each pixel of build_camera_depth_image is the least distance from the camera of the points projected to that pixel, where the first projection takes precedence over the second, and zero if there is none.", "quantifier": "every list of points, projections inside of the image, extrinsic and camera", "why_tests_cant": "All point clouds and poses.", "anchors": ["src/waymo_open_dataset/utils/range_image_utils.py:build_camera_depth_image"]}
{"id": "C76", "title": "Uniform inclinations are the centres of equal parts of the range", "statement": "compute_inclination returns for every range and height strictly increasing inclinations inside of the range, the k-th one being the centre of the k-th of height equal parts.", "quantifier": "every range and height", "why_tests_cant": "All heights and real ranges.", "anchors": ["src/waymo_open_dataset/utils/range_image_utils.py:compute_inclination"]}
{"id": "C77", "title": "A red light violation is reported exactly when a valid object passes the stop point of a stop signal of its lane", "statement": "compute_red_light_violation reports a violation at a step exactly when the object is valid at this step and the one before, the signal of the lane it is on is in a stop state, and it moves from before the stop point to beyond the stop point along the lane; the result does not depend on the order in which a set is listed.", "quantifier": "every trajectory, validity, set of lanes and signals over time", "why_tests_cant": "All trajectories, lanes and histories of signals, and any order of a set.", "anchors": ["src/waymo_open_dataset/wdl_limited/sim_agents_metrics/traffic_light_features.py:compute_red_light_violation", "src/waymo_open_dataset/wdl_limited/sim_agents_metrics/traffic_light_features.py:_tensorize_traffic_signals"]}
{"id": "C78", "title": "The distance to the road edge has the size of the distance to the road edges, and a sign by the side", "statement": "For every point the absolute value of its signed distance is the distance to the nearest road edge segment, and the sign is negative on the left of the road edge (on the road) and positive on the right; for a closed convex road edge it is negative exactly inside. The distance of an object is the largest one of its four bottom corners.", "quantifier": "every set of road edges, point and box", "why_tests_cant": "Real-valued geometry at corners of polylines.", "anchors": ["src/waymo_open_dataset/wdl_limited/sim_agents_metrics/map_metric_features.py:compute_distance_to_road_edge", "src/waymo_open_dataset/wdl_limited/sim_agents_metrics/map_metric_features.py:_compute_signed_distance_to_polylines"]}
{"id": "C79", "title": "Speeds and rates of turning do not depend on how headings are written and recover steady motion", "statement": "The angular speed and angular acceleration of a trajectory do not change when full turns are added to any of its headings; an object turning by a constant angle below a quarter turn per step gets exactly that rate and no angular acceleration, and an object moving with constant velocity gets exactly its speed and no acceleration.", "quantifier": "every trajectory of any length, every way to write its headings, every constant motion", "why_tests_cant": "All lengths, wrap-arounds and real values.", "anchors": ["src/waymo_open_dataset/wdl_limited/sim_agents_metrics/trajectory_features.py:compute_kinematic_features", "src/waymo_open_dataset/wdl_limited/sim_agents_metrics/trajectory_features.py:_wrap_angle"]}
{"id": "C80", "title": "The metrics of a scenario are likelihoods in (0, 1]", "statement": "For estimators with positive pseudocounts or bandwidth, compute_scenario_metrics_for_features_bundle returns for every feature the geometric mean over the valid objects and steps of the probability of the logged value, all likelihoods and the meta-metric are in (0, 1], rates are in [0, 1], and the smallest displacement error is at most the average one.", "quantifier": "every scenario of consistent shape, any number of objects, steps and rollouts, every validity", "why_tests_cant": "All shapes, masks and real values.", "anchors": ["src/waymo_open_dataset/wdl_limited/sim_agents_metrics/metrics.py:compute_scenario_metrics_for_features_bundle", "src/waymo_open_dataset/wdl_limited/sim_agents_metrics/metrics.py:_reduce_average_with_validity"]}
{"id": "C81", "title": "The average displacement error is the mean distance to the log over the valid simulated steps", "statement": "The reported average displacement error of a simulated object is the mean over the valid simulated (future) steps of its distance to the log, and it is zero exactly when the simulation agrees with the log at all of them.", "quantifier": "every simulated and logged trajectory and validity", "why_tests_cant": "All lengths, masks and real values.", "anchors": ["src/waymo_open_dataset/wdl_limited/sim_agents_metrics/metric_features.py:compute_metric_features", "src/waymo_open_dataset/wdl_limited/sim_agents_metrics/trajectory_features.py:compute_displacement_error"]}
{"id": "C82", "title": "The distance of two objects is the distance of their boxes with rounded corners", "statement": "For every two objects with positive sizes and every corner rounding factor in [0, 1), the pairwise distance is positive exactly when the boxes with rounded corners do not meet and is then the smallest distance of their points; otherwise it is minus the smallest shift that separates them. It is symmetric, does not depend on full turns of the headings or on half turns, and a collision (a negative distance) is an overlap of the interiors.", "quantifier": "every pair of boxes of positive size, every heading, every rounding factor", "why_tests_cant": "Real-valued geometry over all relative poses.", "anchors": ["src/waymo_open_dataset/wdl_limited/sim_agents_metrics/interaction_features.py:compute_distance_to_nearest_object", "src/waymo_open_dataset/utils/geometry_utils.py:minkowski_sum_of_box_and_box_points", "src/waymo_open_dataset/utils/geometry_utils.py:signed_distance_from_point_to_convex_polygon"]}
{"id": "C83", "title": "An occupancy grid shows the boxes of the agents: no cell too many, none too few", "statement": "In a rendered grid every cell is 0 or 1; a cell is 1 only if it contains a point of the box of a selected agent of the kind that is valid at the step, and every cell of the grid whose centre lies in such a box is 1. Future steps split into currently-observed and currently-occluded agents, by validity at the current step, whose cell-wise maximum is the grid of all agents. Grids do not change when the whole world is moved rigidly (shifted, if the heading is not normalised).", "quantifier": "every configuration, any number of agents and steps, every pose and size", "why_tests_cant": "Real-valued geometry and rounding over all poses.", "anchors": ["src/waymo_open_dataset/utils/occupancy_flow_renderer.py:render_occupancy_from_inputs", "src/waymo_open_dataset/utils/occupancy_flow_renderer.py:_sample_and_filter_agent_points", "src/waymo_open_dataset/utils/occupancy_flow_renderer.py:_sample_points_from_agent_boxes", "src/waymo_open_dataset/utils/occupancy_flow_renderer.py:_transform_to_image_coordinates", "src/waymo_open_dataset/utils/occupancy_flow_renderer.py:render_roadgraph_from_inputs"]}
{"id": "C84", "title": "The flow of a cell is the mean backward displacement of what is in it", "statement": "At every cell and step the rendered flow is the mean, over the sampled points of agents valid at both steps that are in the cell at the later step, of their displacement in cells back to the earlier step, and zero if there are none; it differs from the real movement by at most one cell in each direction, and agents that stand still have none.", "quantifier": "every configuration, any number of agents and steps, every motion", "why_tests_cant": "All motions, overlaps and roundings.", "anchors": ["src/waymo_open_dataset/utils/occupancy_flow_renderer.py:render_flow_from_inputs", "src/waymo_open_dataset/utils/occupancy_flow_renderer.py:_render_flow_points_for_one_agent_type"]}
{"id": "C85", "title": "Way points show the documented steps and chain together", "statement": "With W way points over F future steps, way point k shows future step (k+1)*F/W, or the maximum over its F/W steps when accumulating; its flow leads from there back to way point k-1 (the current step for the first), whose grid of all agents is its flow origin; accumulated flow is the mean of the flows of its steps. Creation fails exactly if W does not divide F or a way point is longer than the history. Agent trails are in [0, 1], 1 where an agent is now and 0 exactly where none has been.", "quantifier": "every configuration, any number of agents, steps and way points", "why_tests_cant": "All sizes of way points and sequences.", "anchors": ["src/waymo_open_dataset/utils/occupancy_flow_grids.py:create_ground_truth_timestep_grids", "src/waymo_open_dataset/utils/occupancy_flow_grids.py:create_ground_truth_waypoint_grids", "src/waymo_open_dataset/utils/occupancy_flow_grids.py:create_ground_truth_vis_grids"]}
{"id": "C86", "title": "The occupancy and flow metrics are normalised and only count way points with ground truth", "statement": "The soft intersection over union is in [0, 1] and 1 exactly for equal binary non-empty grids; the end point error is the mean distance of the flows over the cells with true flow and 0 exactly if they agree there; every metric is the mean over the way points that have ground truth for it and the counts are the numbers of these; compute_occupancy_flow_metrics returns for every input of consistent shape.", "quantifier": "every pair of grids, any number of way points", "why_tests_cant": "All sizes and real values.", "anchors": ["src/waymo_open_dataset/utils/occupancy_flow_metrics.py:compute_occupancy_flow_metrics", "src/waymo_open_dataset/utils/occupancy_flow_metrics.py:_compute_occupancy_soft_iou", "src/waymo_open_dataset/utils/occupancy_flow_metrics.py:_compute_flow_epe"]}
{"id": "C87", "title": "The road graph of a converted example has a fixed size and holds the most important samples", "statement": "After a conversion every roadgraph tensor has exactly the configured number of samples (times 3 for points and directions). They are the first ones of the concatenation of all samples of all map features, the features in the order lanes, lines, stop signs, crosswalks, speed bumps, road edges, then the rest, and in the order of the map within a kind; every sample carries the id and the type of its feature and the unit vector to the next sample of the same feature (zero for the last). The places left are padding marked invalid.", "quantifier": "every map with any number of features and points, every configuration", "why_tests_cant": "Any number of features, sizes and truncation points.", "anchors": ["src/waymo_open_dataset/data_conversion/scenario_conversion.cc:AddRoadGraphSamples", "src/waymo_open_dataset/data_conversion/scenario_conversion.cc:AddRoadgraphSample", "src/waymo_open_dataset/data_conversion/scenario_conversion.cc:ComputeDirectionVectors", "src/waymo_open_dataset/data_conversion/scenario_conversion.cc:GetFeaturePriorityList"]}
{"id": "C88", "title": "Resampled polylines follow the curve through the map's points", "statement": "The samples of a lane, line or edge are the points of the Catmull-Rom curve through its vertices (linear in the first and the last piece) at multiples of the ratio of the two spacings, up to the end, and then the last vertex unless the last sample is within a centimetre of it. They start at the first vertex; the curve passes through every vertex with one tangent; if the spacing is a multiple of the source spacing the samples are vertices; straight, evenly spaced roads are sampled on the line; moving the map by a rigid motion moves the samples and turns the directions.", "quantifier": "every polyline, all spacings with a positive source spacing, every rigid motion", "why_tests_cant": "Real-valued curves, all lengths and spacings.", "anchors": ["src/waymo_open_dataset/data_conversion/scenario_conversion.cc:AddRoadgraphSample", "src/waymo_open_dataset/data_conversion/scenario_conversion.cc:InterpolateCubicSpline", "src/waymo_open_dataset/data_conversion/scenario_conversion.cc:InterpolatePoint", "src/waymo_open_dataset/data_conversion/scenario_conversion.cc:ComputeDirectionVectors"]}
{"id": "C89", "title": "Sampled polygons are closed and no gap is wide", "statement": "The samples of a crosswalk, speed bump or driveway contain all vertices in order, lie on the sides, begin and end at the first vertex and are evenly spaced by the configured spacing along every side.", "quantifier": "every polygon and every positive spacing", "why_tests_cant": "All polygons and spacings.", "anchors": ["src/waymo_open_dataset/data_conversion/scenario_conversion.cc:AddSampledPolygonSegment", "src/waymo_open_dataset/data_conversion/scenario_conversion.cc:AddRoadgraphSample"]}
{"id": "C90", "title": "The state tensors of a converted example hold the states of its agents at their steps", "statement": "After a conversion every state tensor of a time frame has one entry for every agent place and step of the frame (past: all before the current one; one current; future). An entry shows the recorded state of the agent at that step, with speed and direction of motion computed from the velocity, if the track has a type and is valid there, and the fixed missing value and validity 0 otherwise. Time stamps are those of the scenario in microseconds.", "quantifier": "every scenario, any number of agents and steps, every rounding to 32 bit floats", "why_tests_cant": "Any number of agents and steps, all patterns of validity.", "anchors": ["src/waymo_open_dataset/data_conversion/scenario_conversion.cc:AddStateFeatures", "src/waymo_open_dataset/data_conversion/scenario_conversion.cc:AddSdcAndAgentsStateFeatures"]}
{"id": "C91", "title": "The agents of a converted example are the ones to predict and then the most relevant others", "statement": "The first places of an example have the tracks to predict that are valid now, the first ones of the list up to the maximum, each once, by identifier; they alone are marked as to be predicted. The other places have other tracks as context, each once, all of them if there is room: those valid now first, nearer to the vehicle itself before farther, then those with more valid states. No track left out is preferable to one included. Interest, difficulty and self flags are those of the scenario. The vehicle itself is always included.", "quantifier": "every scenario and configuration, every sorting algorithm and hash order", "why_tests_cant": "All orders, ties and sizes; std::sort and hash sets are not deterministic.", "anchors": ["src/waymo_open_dataset/data_conversion/scenario_conversion.cc:GetModeledAgents", "src/waymo_open_dataset/data_conversion/scenario_conversion.cc:AddSdcAndAgentsStateFeatures", "src/waymo_open_dataset/data_conversion/scenario_conversion.cc:GetObjectsOfInterest", "src/waymo_open_dataset/data_conversion/scenario_conversion.cc:DifficultyLevel"]}
{"id": "C92", "title": "The traffic light tensors of a converted example hold the recorded lights", "statement": "Every traffic light tensor of a time frame has the configured number of entries for every step of the frame: first the recorded states in their order, cut at the maximum, then padding marked invalid. The lane ids are the ids of the lanes in the road graph. Every counter is the number of the things that it names.", "quantifier": "every scenario, any number of steps and lights, every rounding to 32 bit floats", "why_tests_cant": "Any number of steps and lights, all id values.", "anchors": ["src/waymo_open_dataset/data_conversion/scenario_conversion.cc:AddTrafficLightStateFeatures"]}
{"id": "C93", "title": "The conversion of a scenario never crashes and fails only for the documented reasons", "statement": "ScenarioToExample returns for every scenario. It succeeds exactly if the scenario has time steps, its own vehicle is one of the tracks, every track has a state for every step, and a listed track is valid now; otherwise it returns an error status. The result contains the id of the scenario.", "quantifier": "every scenario and configuration", "why_tests_cant": "Every malformed input, not only anticipated ones.", "anchors": ["src/waymo_open_dataset/data_conversion/scenario_conversion.cc:ScenarioToExample", "src/waymo_open_dataset/data_conversion/scenario_conversion.cc:ValidateScenarioProto", "src/waymo_open_dataset/data_conversion/scenario_conversion.cc:AddTfFeatures"]}
{"id": "C94", "title": "The area of the intersection of two convex polygons is exact", "statement": "ComputeIntersectionArea of two convex polygons with counter-clockwise vertices is the area of the set of points in both, with areas of at most 5e-11 cut to 0; the returned vertices go around that set.", "quantifier": "every two strictly convex polygons with any numbers of vertices, in any position", "why_tests_cant": "Real-valued positions, any number of vertices, all degenerate positions.", "anchors": ["src/waymo_open_dataset/math/polygon2d.cc:ComputeIntersectionVertices", "src/waymo_open_dataset/math/polygon2d.cc:ComputeIntersectionArea", "src/waymo_open_dataset/math/polygon2d.cc:AreaInternal", "src/waymo_open_dataset/math/polygon2d.cc:MaybeHasIntersectionWith"]}
{"id": "C95", "title": "The IoU of rotated boxes is the ratio of the areas of their sets of points", "statement": "ComputeIoU of two boxes of accepted sizes seen from above (TYPE_2D), or of upright boxes (TYPE_3D), at any headings, is the area (volume) of the common points divided by that of the points in either, and does not depend on the order of the boxes.", "quantifier": "every two boxes of any headings", "why_tests_cant": "Real-valued headings and positions, including touching boxes.", "anchors": ["src/waymo_open_dataset/metrics/iou.cc:ComputeIoU", "src/waymo_open_dataset/math/polygon2d.cc:ComputeIntersectionArea", "src/waymo_open_dataset/math/box2d.cc:GetCornersInVectorCounterClockwise"]}
{"id": "C96", "title": "Boxes of the same heading have exact IoU, and a box has IoU 1 with itself", "statement": "For two boxes of the same heading, however they touch, share sides or contain each other, ComputeIoU is the ratio of the areas of intersection and union; in particular a box has IoU 1 with itself, seen from above and in 3D.", "quantifier": "every two boxes of accepted sizes and equal heading", "why_tests_cant": "Exactly the degenerate positions that random tests never meet.", "anchors": ["src/waymo_open_dataset/metrics/iou.cc:ComputeIoU", "src/waymo_open_dataset/math/polygon2d.cc:ComputeIntersectionVertices", "src/waymo_open_dataset/math/polygon2d.cc:ExactIntersection"]}
{"id": "C97", "title": "The overlap test of the motion metrics finds exactly the overlapping boxes", "statement": "Two boxes count as overlapping in the motion metrics exactly if the area of their common points is positive (more than 5e-11).", "quantifier": "every two boxes with positive sides", "why_tests_cant": "Real-valued positions and headings.", "anchors": ["src/waymo_open_dataset/metrics/motion_metrics.cc:ComputeOverlapRate", "src/waymo_open_dataset/math/polygon2d.cc:ComputeIntersectionArea"]}
{"id": "C98", "title": "PointInside decides membership in a convex polygon", "statement": "PointInside returns true exactly for the points of the convex hull of the vertices, for any number of vertices (the search over the fan of triangles included), and the bounding boxes of polygons that share a point meet.", "quantifier": "every strictly convex polygon with any number of vertices, every point", "why_tests_cant": "Binary search over any number of vertices, points on edges and extensions.", "anchors": ["src/waymo_open_dataset/math/polygon2d.cc:PointInside", "src/waymo_open_dataset/math/polygon2d.cc:MaybeHasIntersectionWith", "src/waymo_open_dataset/math/polygon2d.cc:AxisAlignedBoundingBox"]}
{"id": "C99", "title": "The intersection of two segments is found exactly", "statement": "The intersection test of two segments reports a point exactly if the segments share one, the reported point is on both, and it is the only one if they are not parallel.", "quantifier": "all segments, also parallel, collinear and touching ones", "why_tests_cant": "Real-valued positions; degenerate positions.", "anchors": ["src/waymo_open_dataset/math/polygon2d.cc:ExactSegmentIntersection", "src/waymo_open_dataset/math/polygon2d.cc:ExactIntersection", "src/waymo_open_dataset/math/polygon2d.cc:ColinearSegmentPointIntersection"]}
{"id": "C100", "title": "Moving a polygon moves its points and changes nothing else", "statement": "Transform turns a polygon around a centre and shifts it: a point is inside of the moved polygon exactly if the point it came from was inside, the area is kept, the area of the intersection of two polygons moved together is kept, and the bounding box is that of the moved points; ShiftCenter is the case of no turn.", "quantifier": "every strictly convex polygon, every angle, centre and offset", "why_tests_cant": "Real-valued motions of polygons with any number of vertices.", "anchors": ["src/waymo_open_dataset/math/polygon2d.cc:Polygon2d::Transform", "src/waymo_open_dataset/math/polygon2d.cc:Polygon2d::ShiftCenter", "src/waymo_open_dataset/math/polygon2d.cc:BuildFromPoints"]}
{"id": "C101", "title": "IsConvexHull accepts exactly the outlines of convex polygons", "statement": "IsConvexHull returns true and reports counter-clockwise order for every convex polygon with counter-clockwise vertices; if it returns true the outline is that of a convex polygon, up to the tolerance, in the reported order.", "quantifier": "every list of points without repetitions", "why_tests_cant": "All outlines, also those that wind more than once.", "anchors": ["src/waymo_open_dataset/math/polygon2d.cc:IsConvexHull"]}
{"id": "C102", "title": "The lazily cached values of a segment cannot be observed", "statement": "length, inv_length, heading, cos_heading, sin_heading, Sqr, Tangent and PerpUnit of a segment agree with its end points after every sequence of constructions, flips, rotations, shifts and queries; and if several threads query one segment at the same time, every query returns what it returns to a single thread, under every schedule.", "quantifier": "every sequence of public operations with unit directions and lengths that are not negative; every schedule of any number of threads, with relaxed loads that may return old values", "why_tests_cant": "Histories and schedules are unbounded.", "anchors": ["src/waymo_open_dataset/math/segment2d.cc:length", "src/waymo_open_dataset/math/segment2d.cc:inv_length", "src/waymo_open_dataset/math/segment2d.cc:heading", "src/waymo_open_dataset/math/segment2d.cc:RotateAroundPoint", "src/waymo_open_dataset/math/segment2d.h:Flip", "src/waymo_open_dataset/math/segment2d.cc:trig_heading"]}
{"id": "C103", "title": "Distances, intersections and samples of segments are those of the geometry", "statement": "DistanceSqrToPoint is the least squared distance to a point of the segment; Intersect finds the common point of segments and only points that are within 1e-10 of both; IntersectOrCoincide holds exactly for segments that meet up to that tolerance; MightIntersect never rejects segments that intersect; SideOfPoint gives the side and the signed distance to the line; Sample and SamplePoints return the points at the given distances from the start.", "quantifier": "all pairs of segments, all points and all distances", "why_tests_cant": "Real-valued inputs.", "anchors": ["src/waymo_open_dataset/math/segment2d.cc:DistanceSqrToPoint", "src/waymo_open_dataset/math/segment2d.cc:Intersect", "src/waymo_open_dataset/math/segment2d.cc:IntersectOrCoincide", "src/waymo_open_dataset/math/segment2d.h:MightIntersect", "src/waymo_open_dataset/math/segment2d.h:SideOfPoint", "src/waymo_open_dataset/math/segment2d.cc:Sample", "src/waymo_open_dataset/math/segment2d.cc:SamplePoints"]}
{"id": "C104", "title": "A box has the corners, the size and the heading it was made from, and they move with it", "statement": "GetCorners returns the corners of the rectangle with the centre, heading, length and width of the box, clockwise from the rear left one; a box made from one corner has that corner at the given index; a box made from a bottom left and a top right corner has the corners of that rectangle, and is refused exactly if they are in the wrong order; GetArea is length times width; shifting and turning a box moves its corners; SetSize keeps centre and heading.", "quantifier": "all centres, headings, sizes, corners and motions", "why_tests_cant": "Real-valued inputs.", "anchors": ["src/waymo_open_dataset/math/box2d.cc:GetCorners", "src/waymo_open_dataset/math/box2d.cc:GetCornersInVectorCounterClockwise", "src/waymo_open_dataset/math/box2d.cc:Set", "src/waymo_open_dataset/math/box2d.h:SetSize", "src/waymo_open_dataset/math/box2d.h:GetArea", "src/waymo_open_dataset/math/box2d.h:RotateAroundPoint"]}
{"id": "C105", "title": "Exact numbers are added, subtracted and multiplied without rounding", "statement": "The sum, difference, product and negation of exact numbers are the exact sum, difference, product and negation, in a unique representation with a sign; a result too large is an infinity with its sign, one too small a zero with its sign, one that needs more than kMaxPrec bits a NaN; conversions from double and int are exact; infinities and NaNs follow the rules of IEEE 754.", "quantifier": "all pairs of exact numbers, all doubles, all ints", "why_tests_cant": "The numbers have up to 64 million bits.", "anchors": ["src/waymo_open_dataset/math/exactfloat.cc:operator+", "src/waymo_open_dataset/math/exactfloat.cc:operator-", "src/waymo_open_dataset/math/exactfloat.cc:operator*", "src/waymo_open_dataset/math/exactfloat.cc:ExactFloat(double)", "src/waymo_open_dataset/math/exactfloat.cc:ExactFloat(int)", "src/waymo_open_dataset/math/exactfloat.cc:Canonicalize", "src/waymo_open_dataset/math/exactfloat.cc:SignedSum"]}
{"id": "C106", "title": "Exact numbers are ordered like the numbers they stand for", "statement": "operator< and operator== compare the values, with -0 equal to 0, infinities at the ends and NaN unordered; the other comparisons follow; fmax, fmin, fdim and fabs return the maximum, minimum, positive difference and absolute value, and ignore NaN as the C library does.", "quantifier": "all pairs of exact numbers", "why_tests_cant": "The numbers have up to 64 million bits.", "anchors": ["src/waymo_open_dataset/math/exactfloat.cc:operator<", "src/waymo_open_dataset/math/exactfloat.cc:operator==", "src/waymo_open_dataset/math/exactfloat.cc:UnsignedLess", "src/waymo_open_dataset/math/exactfloat.cc:fmax", "src/waymo_open_dataset/math/exactfloat.cc:fmin", "src/waymo_open_dataset/math/exactfloat.cc:fdim", "src/waymo_open_dataset/math/exactfloat.cc:fabs"]}
{"id": "C107", "title": "Rounding of exact numbers obeys the rounding mode", "statement": "RoundToPowerOf2 and RoundToMaxPrec return the multiple of the power of two that the mode selects (up, down, to zero, away from zero, nearest with ties to even or away from zero); ceil, floor, trunc, round, rint are the integers of their names; lround, lrint and their long long variants return that integer, or the largest or least integer if it does not fit; a result of RoundToMaxPrec has at most that many bits and a number that has no more is unchanged.", "quantifier": "all exact numbers, powers of two, precisions of at least two bits and rounding modes", "why_tests_cant": "The numbers have up to 64 million bits.", "anchors": ["src/waymo_open_dataset/math/exactfloat.cc:RoundToPowerOf2", "src/waymo_open_dataset/math/exactfloat.cc:RoundToMaxPrec", "src/waymo_open_dataset/math/exactfloat.cc:ceil", "src/waymo_open_dataset/math/exactfloat.cc:floor", "src/waymo_open_dataset/math/exactfloat.cc:trunc", "src/waymo_open_dataset/math/exactfloat.cc:round", "src/waymo_open_dataset/math/exactfloat.cc:rint", "src/waymo_open_dataset/math/exactfloat.cc:ToInteger"]}
{"id": "C108", "title": "Scaling, exponents and conversion to double are exact or nearest", "statement": "ldexp and scalbln multiply by the power of two; frexp splits a number into a fraction of [1/2, 1) and a power of two; ilogb and logb return the exponent; ToDouble returns the nearest double, with ties to even and overflow to infinity, and returns the same double for a number made from one.", "quantifier": "all exact numbers and all shifts", "why_tests_cant": "The numbers have up to 64 million bits.", "anchors": ["src/waymo_open_dataset/math/exactfloat.cc:ldexp", "src/waymo_open_dataset/math/exactfloat.cc:scalbln", "src/waymo_open_dataset/math/exactfloat.cc:frexp", "src/waymo_open_dataset/math/exactfloat.cc:ilogb", "src/waymo_open_dataset/math/exactfloat.cc:ToDouble", "src/waymo_open_dataset/math/exactfloat.cc:ToDoubleHelper"]}
{"id": "C109", "title": "The decimal string of an exact number denotes it up to the stated digits, and unique strings are unique", "statement": "ToStringWithMaxDigits returns a decimal number with the sign of the exact number that is the nearest one with that many digits, or nan, inf, -inf, 0, -0; numbers of the same precision have different strings; ToUniqueString differs for different values.", "quantifier": "all exact numbers, all pairs of them, all numbers of digits", "why_tests_cant": "Strings and values are unbounded; uniqueness is about all pairs.", "anchors": ["src/waymo_open_dataset/math/exactfloat.cc:ToString", "src/waymo_open_dataset/math/exactfloat.cc:ToStringWithMaxDigits", "src/waymo_open_dataset/math/exactfloat.cc:ToUniqueString", "src/waymo_open_dataset/math/exactfloat.cc:GetDecimalDigits", "src/waymo_open_dataset/math/exactfloat.cc:NumSignificantDigitsForPrec"]}
{"id": "C110", "title": "Directions and pixels correspond under the lens distortion of the camera", "statement": "The pixel of a direction is that of the OpenCV distortion with the given intrinsics, valid exactly if the radial factor is between 0.8 and 1.2; otherwise the pixel is outside of the image in the same direction; the direction recovered from a pixel is that of the pixel up to a bound given by the contraction of the iteration, exactly for a pinhole camera, and maps to the same pixel up to 1e-6 pixels for mild distortion.", "quantifier": "all intrinsics, directions and pixels with mild distortion", "why_tests_cant": "The inverse distortion is an iteration on real numbers; convergence is a statement about all directions.", "anchors": ["src/waymo_open_dataset/wdl_limited/camera/camera_model.cc:DirectionToImage", "src/waymo_open_dataset/wdl_limited/camera/camera_model.cc:ImageToDirection", "src/waymo_open_dataset/wdl_limited/camera/camera_model.cc:IterateUndistortion"]}
{"id": "C111", "title": "Global shutter projection and back projection are inverse rigid geometry", "statement": "A world point in front of the camera projects to the pixel of its direction in the camera frame, with its depth along the axis, valid exactly if the distortion is moderate and, if asked for, the pixel lies in the image; points behind the camera give false and -1; a pixel with a depth maps back to the point, up to the depth times the error of the direction; the result does not change if world and pose move together.", "quantifier": "all rigid poses and extrinsics, calibrations, points, pixels and depths", "why_tests_cant": "Geometry over all poses and points.", "anchors": ["src/waymo_open_dataset/wdl_limited/camera/camera_model.cc:WorldToImageWithDepth", "src/waymo_open_dataset/wdl_limited/camera/camera_model.cc:ImageToWorld", "src/waymo_open_dataset/wdl_limited/camera/camera_model.cc:ImageToVehicleGlobalShutter", "src/waymo_open_dataset/wdl_limited/camera/camera_model.cc:PrepareProjection"]}
{"id": "C112", "title": "Rolling shutter: each pixel has the time of its exposure, and the camera follows the motion of the vehicle", "statement": "The time of a pixel is the middle of the exposure of its line, for each of the four directions of reading, and lies within the exposure of the image; the pose used for a pixel is that of its time; the pose of the camera over time is the tangent of the motion of the vehicle with the given velocity and angular velocity, including the lever arm of the camera; only the last image prepared matters.", "quantifier": "all images, calibrations, pixels and motions of the vehicle", "why_tests_cant": "Statement about all motions with the given velocity, and all pixels.", "anchors": ["src/waymo_open_dataset/wdl_limited/camera/camera_model.cc:GetPixelTimestamp", "src/waymo_open_dataset/wdl_limited/camera/camera_model.cc:PrepareProjection", "src/waymo_open_dataset/wdl_limited/camera/camera_model.cc:ImageToWorld"]}
{"id": "C113", "title": "Rolling shutter projection finds the pixel at the time at which the point is seen", "statement": "The projection of a moving point is the pixel of its position in the camera frame at the time of that pixel; a point reported valid is in front of the camera with that depth; without relative motion the result is that of a global shutter; back projection of a pixel gives a point that projects to it; the result does not change if world, pose and velocities move together.", "quantifier": "all points, velocities, images and calibrations", "why_tests_cant": "The time solves a nonlinear equation that depends on all inputs.", "anchors": ["src/waymo_open_dataset/wdl_limited/camera/camera_model.cc:WorldToImageMovingPointWithDepth", "src/waymo_open_dataset/wdl_limited/camera/camera_model.cc:ComputeDepthResidualAndJacobian", "src/waymo_open_dataset/wdl_limited/camera/camera_model.cc:ImageToWorld"]}
{"id": "C114", "title": "The camera operations on tensors project each row on its own", "statement": "The tensors are read as documented (extrinsic, intrinsic, metadata, 26 numbers of the image), each row of the result is the projection or back projection of its row with the validity as 0 or 1, rows do not influence each other, and points without velocity give the same result in both projections.", "quantifier": "all calibrations, images, numbers of points and points", "why_tests_cant": "Any number of rows; independence of rows is about all pairs of inputs.", "anchors": ["src/waymo_open_dataset/wdl_limited/camera/ops/camera_model_ops.cc:WorldToImageOp", "src/waymo_open_dataset/wdl_limited/camera/ops/camera_model_ops.cc:WorldToImageMovingPointOp", "src/waymo_open_dataset/wdl_limited/camera/ops/camera_model_ops.cc:ImageToWorldOp", "src/waymo_open_dataset/wdl_limited/camera/ops/camera_model_ops.cc:ParseInput"]}
{"id": "C115", "title": "Cross products near zero are computed with the exact sign in floating point arithmetic", "statement": "The sum of sixteen doubles is found with a relative error of at most 2^-52 whatever cancels, and ends within 64 passes; the sixteen terms of a cross product add up to it exactly; the cross product of two differences of points has the exact sign, and is zero exactly if the exact one is.", "quantifier": "all finite double inputs without overflow, every rounding to nearest, coordinates whose products do not underflow", "why_tests_cant": "Rounding errors depend on all bits of the inputs; the result must hold for all cancellations.", "anchors": ["src/waymo_open_dataset/math/polygon2d.cc:AccSum", "src/waymo_open_dataset/math/polygon2d.cc:CrossMaybeExact"]}
{"id": "C116", "title": "The metric operations evaluate exactly the rows of the tensors, grouped by frame id", "statement": "Tensors of equal numbers of rows are read without a failing check: every row becomes one object with the documented meaning of its columns, and the frames evaluated are, for each frame id that occurs in the predictions or the ground truths, the rows with that id in their order. Other frame ids or another interleaving of the rows of different frames give the same frames; tensors of different lengths or with another number of columns are refused; a call without rows evaluates one frame without objects.", "quantifier": "all tensors with any number of rows, all frame ids, boxes with 4, 5 or 7 columns", "why_tests_cant": "The grouping ranges over all interleavings of rows and all ids.", "anchors": ["src/waymo_open_dataset/metrics/ops/utils.cc:ParseObjectFromTensors", "src/waymo_open_dataset/metrics/ops/utils.cc:GetBoxByDimension", "src/waymo_open_dataset/metrics/ops/detection_metrics_ops.cc:DetectionMetricsOp"]}
{"id": "C117", "title": "The detection operation returns the metrics of the library for its frames, whatever the schedule of its threads", "statement": "The outputs of the operation are the average precisions, operating points, counters and breakdowns that the library computes for the frames of the tensors; they are the same for every order in which the tasks of the thread pool run, and depend on the frames only as a collection.", "quantifier": "all tensors, all configurations, all orders of the tasks, all permutations of the frames", "why_tests_cant": "Schedules and row orders cannot be enumerated by tests.", "anchors": ["src/waymo_open_dataset/metrics/ops/detection_metrics_ops.cc:DetectionMetricsOp", "src/waymo_open_dataset/metrics/ops/metrics_ops.cc:DetectionMetrics"]}
{"id": "C118", "title": "States of batches add up to the metrics of all rows", "statement": "The state of a call given to the result operation yields what the metrics operation yields; the sum of the states of any batches yields what the metrics operation yields for the rows of all batches.", "quantifier": "all lists of batches of any sizes, also empty ones, all configurations", "why_tests_cant": "A test covers one split into batches; the property is about all of them.", "anchors": ["src/waymo_open_dataset/metrics/ops/detection_metrics_ops.cc:DetectionMetricsStateOp", "src/waymo_open_dataset/metrics/ops/detection_metrics_ops.cc:DetectionMetricsResultOp", "src/waymo_open_dataset/metrics/ops/metrics_ops.cc:DetectionMetricsState"]}
{"id": "C119", "title": "The detection evaluators compute the metrics of exactly the batches since the last reset", "statement": "After any history of updates, evaluations and resets the evaluator evaluates the rows of the updates since the last result or reset, in the order of the updates; evaluating changes nothing; a failed update has no effect. The metric variables hold the rows of all updates. Recall@p is the largest recall of the operating points with a precision above p, zero if there is none.", "quantifier": "all histories of calls, all batches", "why_tests_cant": "Histories are unbounded.", "anchors": ["src/waymo_open_dataset/metrics/python/wod_detection_evaluator.py:WODDetectionEvaluator", "src/waymo_open_dataset/metrics/python/detection_metrics.py:get_detection_metric_ops"]}
{"id": "C120", "title": "The tracking evaluation of a scene is multi object tracking on each breakdown shard", "statement": "For every scene on which the matcher and the breakdown generators keep their promises the evaluation completes and returns, in the order of the breakdown names and levels and for each score cutoff, what multi object tracking yields on the frames of the scene restricted to the objects of that shard and the predictions that reach the cutoff, with tracks kept from frame to frame but not between shards, levels or cutoffs. A scene without frames gives no measurements. Matches and misses add up to the ground truths. The metrics of several scenes are those of the sums of their counters.", "quantifier": "all scenes of any number of frames and objects, all configurations, all iteration orders of the hash containers", "why_tests_cant": "Scenes are unbounded histories and the iteration order of hash containers is not fixed.", "anchors": ["src/waymo_open_dataset/metrics/tracking_metrics.cc:ComputeTrackingMeasurements", "src/waymo_open_dataset/metrics/tracking_metrics.cc:ComputeTrackingMeasurementPerBreakdownShard", "src/waymo_open_dataset/metrics/tracking_metrics.cc:ComputeTrackingMetrics"]}
{"id": "C121", "title": "Predictions without a speed get that of the nearest ground truth in the velocity breakdown of tracking", "statement": "If the velocity breakdown is configured, each prediction without a speed is evaluated with the speed of the ground truth of its frame whose centre is nearest, with zero if the frame has none; a prediction with a speed keeps it.", "quantifier": "all scenes, all predictions with or without speeds", "why_tests_cant": "The rule is about every prediction of every frame; tests use scenes whose predictions are alike.", "anchors": ["src/waymo_open_dataset/metrics/tracking_metrics.cc:ComputeTrackingMeasurements", "src/waymo_open_dataset/metrics/metrics_utils.cc:EstimateObjectSpeed", "src/waymo_open_dataset/metrics/metrics_utils.cc:HasVelocityBreakdown"]}
{"id": "C122", "title": "The tracking operation evaluates exactly the rows of the tensors, grouped by sequence and frame", "statement": "Tensors of equal numbers of rows are read without a failing check. The sequences evaluated are, for each sequence id that occurs, the frames of that sequence in ascending order of their ids, each with exactly the rows of that sequence and frame in their order; the same frame id in two sequences means two frames. Any interleaving of the rows of different frames, and any strictly increasing renumbering of the frames of a sequence, gives the same sequences; other ids for the sequences permute them. Tensors of different lengths are refused.", "quantifier": "all tensors with any number of rows, all ids of sequences, frames and objects", "why_tests_cant": "The grouping ranges over all interleavings of rows and all ids.", "anchors": ["src/waymo_open_dataset/metrics/ops/utils.cc:ParseObjectGroupedBySequenceFromTensors", "src/waymo_open_dataset/metrics/ops/tracking_metrics_ops.cc:TrackingMetricsOp"]}
{"id": "C123", "title": "The tracking operation returns the metrics of the library for its sequences, whatever the schedule of its threads or the names of the sequences", "statement": "The outputs of the operation are the metrics that the library computes for the sequences of the tensors, for every order in which the tasks of the thread pool run. They depend on the sequences as a collection only. The metric variables hold the rows of all updates, so that a sequence may be spread over batches. Without rows the outputs are empty.", "quantifier": "all tensors, all configurations, all orders of the tasks, all permutations and names of the sequences, all lists of batches", "why_tests_cant": "Schedules, names and splits into batches cannot be enumerated by tests.", "anchors": ["src/waymo_open_dataset/metrics/ops/tracking_metrics_ops.cc:TrackingMetricsOp", "src/waymo_open_dataset/metrics/python/tracking_metrics.py:get_tracking_metric_ops"]}
{"id": "C124", "title": "The difficulty given to the tracking operation decides at which levels a ground truth counts", "statement": "The documented input ground_truth_difficulty is the difficulty by which the tracking evaluation includes or leaves out a ground truth at a level.", "quantifier": "all tensors, all configurations", "why_tests_cant": "Tests give all ground truths the same difficulty.", "anchors": ["src/waymo_open_dataset/metrics/ops/tracking_metrics_ops.cc:TrackingMetricsOp", "src/waymo_open_dataset/metrics/ops/metrics_ops.cc:TrackingMetrics"]}
{"id": "C125", "title": "The motion operation evaluates, for each scenario id, the agents with a valid step and the selected predictions", "statement": "If every prediction that the mask selects points at an agent with a valid step, the tensors are read without a failing check. There is one scenario for each scenario id. Its tracks are those of all the agents with a valid step, in order; its required tracks are those of the selected agents; its predictions are the groups with a selected agent, each with all its scores and the trajectories of the selected agents under their ids. Elements with different ids are different scenarios. A selected prediction that points outside of the agents, and tensors whose sizes do not fit, are refused.", "quantifier": "all tensors of any sizes, all masks and indices, all ids", "why_tests_cant": "The index translation ranges over all patterns of valid agents and masks.", "anchors": ["src/waymo_open_dataset/metrics/ops/utils.cc:ParseScenarioAndPredictonsFromTensors", "src/waymo_open_dataset/metrics/ops/motion_metrics_ops.cc:MotionMetricsOp"]}
{"id": "C126", "title": "The motion operation attributes each prediction to the agent it is for, and reads no memory outside of its tensors", "statement": "A selected prediction is evaluated against the agent that its index names, or not at all. The object ids may be any numbers.", "quantifier": "all tensors, all indices in range, all object ids", "why_tests_cant": "Tests use agents that are valid and ids that are small.", "anchors": ["src/waymo_open_dataset/metrics/ops/utils.cc:ParseScenarioAndPredictonsFromTensors"]}
{"id": "C127", "title": "The motion operation returns the metrics of the library for its scenarios, one row per object type and step, whatever the order of its batch, hash map and threads", "statement": "For scenarios whose sizes fit the configuration the operation does not fail. Its rows are the metrics that the library computes for the scenarios, in the order of the names of the breakdowns; a type or step without predictions has the value -1. They are the same for every order of the elements of the batch, of the iteration of the hash map and of the tasks of the thread pool.", "quantifier": "all tensors, all configurations, all orders", "why_tests_cant": "Schedules and iteration orders cannot be enumerated by tests.", "anchors": ["src/waymo_open_dataset/metrics/ops/motion_metrics_ops.cc:MotionMetricsOp", "src/waymo_open_dataset/metrics/config_util.cc:GetBreakdownNamesFromMotionConfig"]}
{"id": "C128", "title": "The motion metrics of Python do not depend on how scenarios are spread over updates, with or without ids", "statement": "Updates of the metric variables may come in any order and any batches. Without scenario ids each element of each update is a scenario of its own. All shapes that the operation is documented for are accepted.", "quantifier": "all lists of updates, all ids, all shapes", "why_tests_cant": "Tests use a single update.", "anchors": ["src/waymo_open_dataset/metrics/python/motion_metrics.py:get_motion_metric_ops"]}
{"id": "C129", "title": "Matching a batch of boxes gives the best one-to-one pairs, element by element, in flattened indices", "statement": "For tensors whose shapes go with the box type the operation with the Hungarian matcher succeeds. The pairs that it returns use each prediction and each ground truth at most once. Both boxes of a pair are in the same element of the batch and have positive extents, and their similarity reaches the threshold. The reported similarity and affinity are those of the pair. Predictions come in increasing order. No other such set of pairs has a larger total similarity (times affinity, in millionths). A box of zeros is never matched. Tensors of other shapes are refused.", "quantifier": "all tensors of any sizes, all thresholds, all similarities with values from zero to one", "why_tests_cant": "Optimality and the numbering range over all batches.", "anchors": ["src/waymo_open_dataset/metrics/ops/matcher_ops.cc:OpenDatasetMatcherOp", "src/waymo_open_dataset/metrics/ops/matcher_ops.cc:MatchBoxes", "src/waymo_open_dataset/metrics/python/matcher.py:match"]}
{"id": "C130", "title": "Matching boxes works with every type of matcher that it offers", "statement": "The function that matches boxes takes the type of matcher as an argument. For each documented type the call succeeds on all boxes of a fitting shape.", "quantifier": "all boxes, all types of matcher", "why_tests_cant": "Tests use the default type.", "anchors": ["src/waymo_open_dataset/metrics/ops/matcher_ops.cc:MatchBoxes", "src/waymo_open_dataset/metrics/matcher.cc:ScoreFirstMatcher::Match", "src/waymo_open_dataset/metrics/python/matcher.py:match"]}
{"id": "C131", "title": "Each element of a batch of boxes is matched on its own, whatever the padding", "statement": "The result of a batch is the results of its elements, each as a batch of one, with the indices counted through the batch. Adding boxes of zeros at the end of every element changes only the numbering. Tensors of rank two are a batch of one.", "quantifier": "all batches, all amounts of padding", "why_tests_cant": "Ties in the matching make the answer depend on details of the algorithm.", "anchors": ["src/waymo_open_dataset/metrics/ops/matcher_ops.cc:OpenDatasetMatcherOp", "src/waymo_open_dataset/metrics/python/matcher.py:match"]}
{"id": "C132", "title": "Writing a submission spreads the predictions over the shards without losing or repeating one", "statement": "Given files with predictions, a description with both names and a positive number of shards, the program that writes a submission creates that many files. File k reads back as a submission with the description and, in order, the predictions that are not filtered out and whose position in their file is k modulo the number of shards. The files together hold each such prediction once. Only the extents of a box are changed, and writing a second time changes nothing.", "quantifier": "all files of predictions, all numbers of shards and files, all descriptions", "why_tests_cant": "The result depends on every byte of the files; a test uses one file.", "anchors": ["src/waymo_open_dataset/metrics/tools/create_submission.cc:Run", "src/waymo_open_dataset/metrics/tools/create_submission.cc:ReadFileToString"]}
{"id": "C133", "title": "Writing a submission leaves out exactly the predictions with low scores or boxes that are not numbers", "statement": "A prediction is written exactly if its score is at least 0.03 and the seven numbers of its box are numbers. Extents below a millionth are written as a millionth.", "quantifier": "all predictions, all bit patterns of scores and boxes", "why_tests_cant": "Bit patterns are too many to try.", "anchors": ["src/waymo_open_dataset/metrics/tools/create_submission.cc:Run"]}
{"id": "C134", "title": "The comparison reads a file of predictions and a submission as the predictions in them", "statement": "The program that compares latency results with a submission accepts both kinds of file for each argument. A file of predictions is read as its predictions, a submission as its results.", "quantifier": "all predictions, all submissions and names of methods", "why_tests_cant": "Which kind a file is taken for depends on all its bytes.", "anchors": ["src/waymo_open_dataset/latency/compare_objects_file_to_submission_main.cc:ReadObjectsFromFile"]}
{"id": "C135", "title": "If the comparison succeeds, the detections of every frame agree", "statement": "If the comparison succeeds, it reports exactly the frames (context, time and camera) with a compared detection in the latency results. In each of them there is a one-to-one set of pairs of equal type, with boxes that overlap at least as much as the threshold and scores that differ by at most 0.05, which misses at most a twentieth of the detections, counting those of the larger side.", "quantifier": "all files, all thresholds, all numbers of frames and detections", "why_tests_cant": "The matching and the grouping range over all files.", "anchors": ["src/waymo_open_dataset/latency/compare_objects_file_to_submission_main.cc:Compute"]}
{"id": "C136", "title": "The comparison accepts equal results", "statement": "If each frame with a compared detection in the latency results has the same compared detections in the submission, in any order, the comparison succeeds.", "quantifier": "all results, all orders", "why_tests_cant": "The order within a frame matters only for special sets of boxes.", "anchors": ["src/waymo_open_dataset/latency/compare_objects_file_to_submission_main.cc:Compute"]}
{"id": "C137", "title": "The comparison notices detections that the latency results lack", "statement": "If a frame of the latency evaluation has detections in the submission and the latency results lack more than a twentieth of them, the comparison fails.", "quantifier": "all results", "why_tests_cant": "It depends on frames that are absent from a file.", "anchors": ["src/waymo_open_dataset/latency/compare_objects_file_to_submission_main.cc:Compute"]}
{"id": "C138", "title": "A participant whose submission holds what the model returns passes the comparison", "statement": "Let a model return rows for each frame, in the order in which directories happen to be listed. Let the submission hold the same detections, written by the program that writes submissions. Then the comparison of the collected latency results with the submission succeeds.", "quantifier": "all models and outputs, all orders of directories, all numbers of shards", "why_tests_cant": "It is a statement about four programs together.", "anchors": ["src/waymo_open_dataset/latency/make_objects_file_from_latency_results.py:make_object_list_from_subdir", "src/waymo_open_dataset/latency/wod_latency_evaluator.py:process_example", "src/waymo_open_dataset/metrics/tools/create_submission.cc:Run", "src/waymo_open_dataset/latency/compare_objects_file_to_submission_main.cc:Compute"]}
{"id": "C139", "title": "The detection programs evaluate every frame once, with all its objects", "statement": "The frames that the command line programs for detection evaluate are those of the two files: one for each context, camera and time of an object, with all predictions and all ground truths of that frame in the order of the files, whatever the name of the context. Objects of different frames may be interleaved in the files in any way.", "quantifier": "all files of predictions and ground truths, all names of contexts", "why_tests_cant": "Frames are told apart by a string that is put together from a name and a number; a test tries a few names.", "anchors": ["src/waymo_open_dataset/metrics/tools/compute_detection_metrics_main.cc:Compute", "src/waymo_open_dataset/metrics/tools/compute_detection_let_metrics_main.cc:Compute"]}
{"id": "C140", "title": "The detection programs evaluate exactly the visible ground truths with the documented difficulty", "statement": "Ground truths without lidar points are left out and all others are kept, unchanged but for the difficulty: it is the annotated one or, if there is none, LEVEL_2 for at most five points and LEVEL_1 for more. The program for camera only detection counts the points of the top lidar, leaves out objects that no camera sees, and evaluates the box that is synchronised to the camera; users need not populate the camera and that box.", "quantifier": "all ground truths", "why_tests_cant": "The rule has many cases per object and holds for files of any size.", "anchors": ["src/waymo_open_dataset/metrics/tools/compute_detection_metrics_main.cc:Compute", "src/waymo_open_dataset/metrics/tools/compute_detection_let_metrics_main.cc:Compute"]}
{"id": "C141", "title": "The detection programs print each metric next to the name of its breakdown", "statement": "For all files the programs print one line for each breakdown and difficulty level, in the documented order, with the name of the breakdown and its metrics, which are in [0, 1]. A file that does not parse gives no metrics.", "quantifier": "all files whose objects have known types, all matchers", "why_tests_cant": "Names and metrics come from different functions that have to agree for all configurations and inputs.", "anchors": ["src/waymo_open_dataset/metrics/tools/compute_detection_metrics_main.cc:Compute", "src/waymo_open_dataset/metrics/tools/compute_detection_let_metrics_main.cc:Compute", "src/waymo_open_dataset/metrics/tools/compute_detection_metrics_main.cc:GetConfig", "src/waymo_open_dataset/metrics/tools/compute_detection_let_metrics_main.cc:GetConfig"]}
{"id": "C142", "title": "The tracking program evaluates each context as one scene in the order of time", "statement": "The scenes that the command line program for tracking evaluates are the contexts of the two files. Each has one frame for each time of an object, in the order of time whatever the order in the files, with all objects of that context and time. The program prints the metrics of each breakdown next to its name.", "quantifier": "all files, all orders of objects", "why_tests_cant": "The result must not depend on the order of frames in the files, of which there are too many.", "anchors": ["src/waymo_open_dataset/metrics/tools/compute_tracking_metrics_main.cc:Compute", "src/waymo_open_dataset/metrics/tools/compute_tracking_metrics_main.cc:GetConfig"]}
{"id": "C143", "title": "The segmentation program evaluates the points of all ground truth frames", "statement": "The metrics that the command line program for segmentation prints are those of all points of both returns of the TOP lidar in all ground truth frames together. Points of a frame without prediction count as predicted undefined. Of a frame that occurs more than once in a file the last one counts. No metrics are printed if a frame has labels of another lidar or a prediction with another number of points.", "quantifier": "all files of predictions and ground truths", "why_tests_cant": "The result is a ratio over all points of all frames.", "anchors": ["src/waymo_open_dataset/metrics/tools/compute_segmentation_metrics_main.cc:Compute"]}
{"id": "C144", "title": "The two parameters of a ray and a box are where the ray enters and leaves the box", "statement": "For a ray and a box, both parameters are given by the slabs of the box: the ray is inside the box exactly between the first and the second. If the direction is a unit vector they are distances from the origin along the ray. The flag of a ray is set exactly if the ray meets the box in front of its origin. If the origin is inside the box the first parameter is negative.", "quantifier": "all rays and boxes", "why_tests_cant": "The statement is about a continuum of rays.", "anchors": ["src/waymo_open_dataset/v2/perception/utils/object_asset_utils.py:get_ray_box_intersects"]}
{"id": "C145", "title": "Rays that miss the box have negative parameters", "statement": "The documentation says that both parameters are negative if the ray does not intersect the box.", "quantifier": "all rays and boxes", "why_tests_cant": "It holds for many rays that a test would try.", "anchors": ["src/waymo_open_dataset/v2/perception/utils/object_asset_utils.py:get_ray_box_intersects"]}
{"id": "C146", "title": "Rays that are parallel to a face are treated like others", "statement": "A ray in a plane that is parallel to a face hits the box exactly if the plane cuts the box.", "quantifier": "all rays with a zero component of the direction", "why_tests_cant": "Only special rays are affected.", "anchors": ["src/waymo_open_dataset/v2/perception/utils/object_asset_utils.py:get_ray_box_intersects"]}
{"id": "C147", "title": "Coordinates of a box and of a frame: rays are moved rigidly", "statement": "Points and directions are given in the coordinates of a box, or of a frame, so that distances are kept, that a point is in the oriented box exactly if its coordinates are in the axis-aligned box of the same size around the origin, that directions keep their lengths, and that a parameter along the ray belongs to the same point in both. The reverse functions go back to the same points.", "quantifier": "all boxes, poses, points and directions", "why_tests_cant": "The statement is about a continuum of inputs.", "anchors": ["src/waymo_open_dataset/v2/perception/utils/object_asset_utils.py:transform_points_to_box_coord", "src/waymo_open_dataset/v2/perception/utils/object_asset_utils.py:transform_directions_to_box_coord", "src/waymo_open_dataset/v2/perception/utils/object_asset_utils.py:transform_points_to_box_coord_reverse", "src/waymo_open_dataset/v2/perception/utils/object_asset_utils.py:transform_points_to_frame", "src/waymo_open_dataset/v2/perception/utils/object_asset_utils.py:transform_directions_to_frame"]}
{"id": "C148", "title": "Parsing a frame gives the returns of each laser", "statement": "For each laser the dictionaries have the range images, the camera projections and the labels of its returns, in order, and nothing for other lasers; the poses of the pixels are those of the first return of TOP. Every frame whose strings can be decoded is parsed.", "quantifier": "all frames with distinct lasers, whichever returns and labels they have", "why_tests_cant": "Which returns and labels there are has many combinations per laser.", "anchors": ["src/waymo_open_dataset/utils/frame_utils.py:parse_range_image_and_camera_projection"]}
{"id": "C149", "title": "The point clouds of a frame have one point for each valid pixel, at the right place", "statement": "The clouds are ordered by laser. Each has exactly one row for each pixel with positive range, by rows and columns, which is the first three features, if kept, and the coordinates: the beam of the row and column at the range, moved by the extrinsic and, for TOP, by the pose of the pixel and the inverse of the pose of the frame. The camera projections are those of the same pixels in the same order.", "quantifier": "all frames, range images of all sizes, both returns, with and without polar features", "why_tests_cant": "The statement is about all pixels of images of any size.", "anchors": ["src/waymo_open_dataset/utils/frame_utils.py:convert_range_image_to_cartesian", "src/waymo_open_dataset/utils/frame_utils.py:convert_range_image_to_point_cloud"]}
{"id": "C150", "title": "Every frame with calibrated lasers has point clouds", "statement": "If each calibrated laser has the chosen return, with images of matching sizes and an inclination for each row, then the clouds are computed, whichever lasers the frame has.", "quantifier": "all frames", "why_tests_cant": "It depends on which lasers are there.", "anchors": ["src/waymo_open_dataset/utils/frame_utils.py:convert_range_image_to_cartesian", "src/waymo_open_dataset/utils/frame_utils.py:convert_range_image_to_point_cloud"]}
{"id": "C151", "title": "Version 2 gives the clouds of version 1", "statement": "If the functions of version 1 give clouds and projections of a frame, then those of version 2, applied to the components that are extracted from the same frame, give the same clouds and projections, laser by laser.", "quantifier": "all frames, all returns", "why_tests_cant": "It is a statement about two implementations on all inputs.", "anchors": ["src/waymo_open_dataset/v2/perception/utils/lidar_utils.py:convert_range_image_to_cartesian", "src/waymo_open_dataset/v2/perception/utils/lidar_utils.py:convert_range_image_to_point_cloud", "src/waymo_open_dataset/v2/perception/utils/lidar_utils.py:extract_pointwise_camera_projection", "src/waymo_open_dataset/v2/perception/utils/lidar_utils.py:parse_range_image", "src/waymo_open_dataset/v2/perception/utils/lidar_utils.py:get_laser_by_name", "src/waymo_open_dataset/v2/perception/compat_v1/lidar.py:LiDARComponentExtractor", "src/waymo_open_dataset/v2/perception/compat_v1/context.py:LiDARCalibrationComponentExtractor"]}
{"id": "C152", "title": "The lidar points of the motion data set are those of the perception data set", "statement": "For the same images, poses and calibration the points and features of TOP and of the side lasers in the motion data set are those that version 2 computes, for both returns, also if there is no list of inclinations.", "quantifier": "all images, poses and calibrations", "why_tests_cant": "It is a statement about two implementations on all inputs.", "anchors": ["src/waymo_open_dataset/utils/womd_lidar_utils.py:extract_top_lidar_points", "src/waymo_open_dataset/utils/womd_lidar_utils.py:extract_side_lidar_points"]}
{"id": "C153", "title": "Boxes of labels are extracted without loss, or with the documented error", "statement": "For a label with a box the component of version 2 has every number of the box, the type, the speed and acceleration if there is metadata, the counts of points and the difficulties; fields that are not set read as their defaults. There is no component exactly if the label has no box. Two labels with the same component agree in all these fields if they are set. If a field is missing the error is ExtractionError.", "quantifier": "all labels of lasers and cameras, with any fields set", "why_tests_cant": "Which fields are set has exponentially many combinations.", "anchors": ["src/waymo_open_dataset/v2/perception/compat_v1/box.py:LiDARBoxComponentExtractor", "src/waymo_open_dataset/v2/perception/compat_v1/box.py:LiDARCameraSyncedBoxComponentExtractor", "src/waymo_open_dataset/v2/perception/compat_v1/box.py:CameraBoxComponentExtractor", "src/waymo_open_dataset/v2/perception/compat_v1/interfaces.py:ComponentExtractor"]}
{"id": "C154", "title": "The id of a projected box gives the object and the camera", "statement": "For every id of an object and every camera, the id `object_CAMERA` is parsed as this object and this camera, and different ids are parsed differently; an id is never parsed as something else without an error.", "quantifier": "all ids of objects and all cameras of version 1", "why_tests_cant": "Ids are strings of any length.", "anchors": ["src/waymo_open_dataset/v2/perception/compat_v1/box.py:_parse_lidar_object_id", "src/waymo_open_dataset/v2/perception/compat_v1/box.py:ProjectedLiDARBoxComponentExtractor"]}
{"id": "C155", "title": "Keypoints become columns, one row for each keypoint", "statement": "The columns of types, occlusion and coordinates have one row for each keypoint of the label, in order. There is no component exactly if the label has no keypoints. A keypoint whose type, location or visibility is missing is an ExtractionError, and nothing else is.", "quantifier": "all labels and all lists of keypoints", "why_tests_cant": "Lists have any length and any field may be missing.", "anchors": ["src/waymo_open_dataset/v2/perception/compat_v1/keypoints.py:CameraHumanKeypointsFrameExtractor", "src/waymo_open_dataset/v2/perception/compat_v1/keypoints.py:LiDARHumanKeypointsFrameExtractor"]}
{"id": "C156", "title": "Components can be joined by their keys", "statement": "Two components that come from labels have the same key exactly if the labels have the same id, frame and, for images, camera: boxes, synchronised boxes and keypoints of the same object are joined and no others. The box of an object in an image is joined to the box of the same object in space. An association has the ids of both labels.", "quantifier": "all pairs of labels of all frames", "why_tests_cant": "It is a statement about pairs of labels of a whole data set.", "anchors": ["src/waymo_open_dataset/v2/perception/compat_v1/box.py:LiDARBoxComponentExtractor", "src/waymo_open_dataset/v2/perception/compat_v1/box.py:CameraBoxComponentExtractor", "src/waymo_open_dataset/v2/perception/compat_v1/box.py:CameraToLiDARBoxAssociationComponentExtractor", "src/waymo_open_dataset/v2/perception/compat_v1/keypoints.py:LiDARHumanKeypointsFrameExtractor"]}
{"id": "C157", "title": "Images, calibrations, statistics, poses and segmentation are copied", "statement": "Components of images, calibrations of cameras and lasers, statistics, poses and segmentation have the fields of the message: the numbers of the intrinsic by their names, the columns of mappings and counts row by row in order. No numbers are lost, and a message with too few numbers is an ExtractionError.", "quantifier": "all messages", "why_tests_cant": "Lists have any length and any field may be missing.", "anchors": ["src/waymo_open_dataset/v2/perception/compat_v1/camera_image.py:CameraImageComponentExtractor", "src/waymo_open_dataset/v2/perception/compat_v1/context.py:CameraCalibrationComponentExtractor", "src/waymo_open_dataset/v2/perception/compat_v1/context.py:LiDARCalibrationComponentExtractor", "src/waymo_open_dataset/v2/perception/compat_v1/context.py:StatsComponentExtractor", "src/waymo_open_dataset/v2/perception/compat_v1/segmentation.py:CameraSegmentationLabelComponentExtractor", "src/waymo_open_dataset/v2/perception/compat_v1/pose.py:VehiclePoseFrameExtractor"]}
{"id": "C158", "title": "Each feature of a simulated scene belongs to the object and the step where it stands", "statement": "For every scene of complete simulations, in any order, the features have one row for each evaluated object, in the order of the evaluated ids, and one column for each step that is scored: 80 after the history or all 91. The numbers in a row and column are those of this object at this step: speeds and accelerations from its history and simulation, the distance to the nearest other object of the scene, evaluated or not, the time to collision with the nearest object it follows, the distance to the road edges and the red light. Collisions and departures are exactly the negative and the positive distances.", "quantifier": "all scenarios, maps, scenes, orders of the simulations and both challenges", "why_tests_cant": "The scene has any number of objects in any order; an exchange of rows is visible only if the objects differ.", "anchors": ["src/waymo_open_dataset/wdl_limited/sim_agents_metrics/metric_features.py:compute_metric_features"]}
{"id": "C159", "title": "Features do not depend on the order in which other objects are listed", "statement": "The features of the evaluated objects are the same whatever the order in which the ids of the other objects are listed.", "quantifier": "all scenes and all orders of the ids that are not evaluated", "why_tests_cant": "The order of a Python set is not under control of a test.", "anchors": ["src/waymo_open_dataset/wdl_limited/sim_agents_metrics/metric_features.py:compute_metric_features"]}
{"id": "C160", "title": "Which scenes have features", "statement": "A complete scene of boxes with positive sizes has features for every map of the data set: with or without lanes, signals and road edges, and for all tracks to be predicted.", "quantifier": "all scenarios, maps and scenes", "why_tests_cant": "Maps of any shape are allowed by the format.", "anchors": ["src/waymo_open_dataset/wdl_limited/sim_agents_metrics/metric_features.py:compute_metric_features", "src/waymo_open_dataset/wdl_limited/sim_agents_metrics/metric_features.py:compute_scenario_rollouts_features"]}
{"id": "C161", "title": "Features of rollouts are those of their scenes", "statement": "The features of a set of rollouts are, in order, those of each scene on its own, and those of the log; the log is compared with the validity of the log and the simulations with their own. There is no result without scenes or if a scene has none.", "quantifier": "all scenarios and all lists of scenes", "why_tests_cant": "The number of rollouts is not bounded.", "anchors": ["src/waymo_open_dataset/wdl_limited/sim_agents_metrics/metric_features.py:compute_scenario_rollouts_features"]}
{"id": "C162", "title": "The log has no displacement error", "statement": "The average displacement error in the features of the log is zero for every evaluated object.", "quantifier": "all scenarios and both challenges", "why_tests_cant": "Quantifies over all logs, with any gaps in validity.", "anchors": ["src/waymo_open_dataset/wdl_limited/sim_agents_metrics/metric_features.py:compute_metric_features"]}
{"id": "C163", "title": "The IoU of boxes does not depend on the frame", "statement": "Turning and shifting the ground plane and raising it, with both boxes and their headings, changes no IoU of type TYPE_2D or TYPE_3D, whatever the sizes and positions of the boxes: touching, sharing sides, of opposite headings or of no size.", "quantifier": "all pairs of boxes and all motions of the plane", "why_tests_cant": "Frames and positions are a continuum and degenerate positions are never sampled.", "anchors": ["src/waymo_open_dataset/metrics/iou.cc:ComputeIoU", "src/waymo_open_dataset/math/polygon2d.cc:ComputeIntersectionArea"]}
{"id": "C164", "title": "Compressed camera rays are the rays", "statement": "Samples of camera rays are the origins in channels 0-2 and the directions in channels 3-5, one per row of the table. Encoding the rays of an object and decoding the result gives images of the same size under the same key, whose origins and directions differ from the original ones by at most the bound of the codec from what its components express, and with orthonormal components from the original values.", "quantifier": "all codecs, sizes of patches and rays whose coefficients are in the range of the codes", "why_tests_cant": "Sizes, values and codecs are unbounded; tests use one patch.", "anchors": ["src/waymo_open_dataset/v2/perception/utils/object_asset_codec.py:ObjectAssetRayCodec", "src/waymo_open_dataset/v2/perception/object_asset.py:CameraRayImage"]}
{"id": "C165", "title": "Every complete component of camera rays can be encoded", "statement": "A component with an origin and a direction for each pixel of its patch can be encoded; components without one of them, with a ragged image or with images of different sizes are refused.", "quantifier": "all components of camera rays", "why_tests_cant": "Which sizes fail depends on tile and patch together; patches come in all sizes.", "anchors": ["src/waymo_open_dataset/v2/perception/utils/object_asset_codec.py:ObjectAssetRayCodec.encode"]}
{"id": "C166", "title": "Camera segmentation evaluates every frame once with its labels and weights", "statement": "A sequence is evaluated if and only if there is one array of each kind per frame and the arrays of a frame have one size. Every frame is then given once, in order and under the identifier of its sequence; tracked pixels keep their label, untracked ones keep the class and get instance 0; predictions are unchanged; the weights of a pixel seen by n cameras add up to 1.", "quantifier": "all sequences, labels, masks and coverages", "why_tests_cant": "Sequences and masks are unbounded.", "anchors": ["src/waymo_open_dataset/wdl_limited/camera_segmentation/camera_segmentation_metrics.py:get_metric_object_by_sequence"]}
{"id": "C167", "title": "Camera segmentation metrics of videos can be aggregated in any order", "statement": "Aggregating the metric objects of videos gives the result of one object that has seen all frames of all videos; each object counts once, the first too, and the order of the videos does not matter.", "quantifier": "all nonempty lists of videos and all metrics whose updates and merges add amounts", "why_tests_cant": "Orders and partitions are too many to test.", "anchors": ["src/waymo_open_dataset/wdl_limited/camera_segmentation/camera_segmentation_metrics.py:aggregate_metrics"]}
{"id": "C168", "title": "Comparing tf.Examples is an equality up to a tolerance", "statement": "Two examples compare as equal if and only if they have the same features, floats up to the tolerance and all others exactly; the order of features does not matter, every example equals itself, the order of the arguments does not matter, and tolerances add up.", "quantifier": "all pairs and triples of examples and all tolerances", "why_tests_cant": "The relation is over all pairs of messages; tests compare a few.", "anchors": ["src/waymo_open_dataset/utils/example_utils.py:examples_equal"]}
{"id": "C169", "title": "Camera tokens are added and looked up exactly", "statement": "Adding camera data to a scenario keeps its fields and tokens and appends the tokens of the camera data in order. The embeddings of tokens are the rows of the codebook in order, if all tokens are indices of it, and an error otherwise.", "quantifier": "all scenarios, codebooks and lists of tokens", "why_tests_cant": "Numbers of tokens are unbounded.", "anchors": ["src/waymo_open_dataset/utils/womd_camera_utils.py:add_camera_tokens_to_scenario", "src/waymo_open_dataset/utils/womd_camera_utils.py:get_camera_embedding_from_codebook"]}
{"id": "C170", "title": "The dictionary of a frame has exactly the documented entries", "statement": "For every calibrated laser the dictionary has its inclinations, extrinsic matrix, both range images with up to three polar features followed by the point in the frame of the vehicle, and both camera projections; for every camera its image, velocity, pose and times, intrinsics, extrinsics, size and shutter direction; and the poses of the pixels of TOP, the pose and the time of the frame. No entry overwrites another, and there are no other keys.", "quantifier": "all frames in which every sensor occurs once", "why_tests_cant": "Frames, sizes and sets of sensors are unbounded; keys of lasers and cameras share names, so collisions depend on the combination.", "anchors": ["src/waymo_open_dataset/utils/frame_utils.py:convert_frame_to_dict"]}
{"id": "C171", "title": "The times in the dictionary of a frame are those of the messages", "statement": "The time of the pose, the trigger time, the time of the readout and the shutter duration of an image in the dictionary are those of its message.", "quantifier": "all frames and times", "why_tests_cant": "The loss depends on the size of the times; tests do not compare them.", "anchors": ["src/waymo_open_dataset/utils/frame_utils.py:convert_frame_to_dict"]}
{"id": "C172", "title": "Labels of an object are grouped without loss", "statement": "Grouping the labels of a frame gives one entry per identifier of a laser object, with type, box and key points of its label and, per camera, the box and the key points of the labels associated with it; an object without key points has none, an object without boxes in cameras has no boxes, and no associated box is lost.", "quantifier": "all frames, with any labels and associations", "why_tests_cant": "Associations between labels are arbitrary; tests use a few objects with one box each.", "anchors": ["src/waymo_open_dataset/utils/keypoint_data.py:group_object_labels"]}
{"id": "C173", "title": "A wireframe has a dot per key point and a line per edge whose points are known", "statement": "Key points of every known type can be drawn. The wireframe has one dot per type, at its place, with the color, scaled size and name of its type and a mark if it is occluded. An edge is drawn if and only if all points it joins are known; its ends are the points, or the averages of its points, and its halves have the colors of the ends, meet halfway and cover the whole edge.", "quantifier": "all sets of key points, configurations of edges, colors and sizes, in any dimension", "why_tests_cant": "Sets of key points are combinations of types; tests build a few.", "anchors": ["src/waymo_open_dataset/utils/keypoint_draw.py:build_camera_wireframe", "src/waymo_open_dataset/utils/keypoint_draw.py:build_laser_wireframe", "src/waymo_open_dataset/utils/keypoint_draw.py:draw_laser_wireframe"]}
{"id": "C174", "title": "Cropping an object keeps its key points on the same pixels", "statement": "Cropping an image to a box with a margin gives the pixels of the image that the enlarged box covers. Every key point in the box stays inside the cropped image and lies on the pixel on which it was.", "quantifier": "all images, boxes, margins and key points", "why_tests_cant": "Boxes can reach over every border; tests use boxes inside.", "anchors": ["src/waymo_open_dataset/utils/keypoint_draw.py:crop_camera_keypoints"]}
{"id": "C175", "title": "Pictures of occupancy blend the classes over the road", "statement": "Every value of the picture is in [0, 1]. A pixel is blue for cyclists over green for pedestrians over red for vehicles over the road, black on white, each class with the opacity of its amplified occupancy; a class that is missing does not show.", "quantifier": "all grids of probabilities, batches, sizes and positive amplifications", "why_tests_cant": "Grids hold any probabilities; tests look at shapes.", "anchors": ["src/waymo_open_dataset/utils/occupancy_flow_vis.py:occupancy_rgb_image"]}
{"id": "C176", "title": "Pictures of flow show direction and relative speed", "statement": "Hue is in [0, 1) and tells the direction, saturation is in [0, 1] and tells the speed as a part of the largest in the image, which is 1 unless nothing moves. Two pixels beside the road with equal trails have one color if and only if they move alike; the road and a fifth of the trails darken the picture; all values are in [0, 1].", "quantifier": "all flow fields, batches, sizes, roads and trails", "why_tests_cant": "Injectivity of the colors concerns all pairs of vectors.", "anchors": ["src/waymo_open_dataset/utils/occupancy_flow_vis.py:flow_rgb_image"]}
{"id": "C177", "title": "Plots of maps show every feature in the style of its type", "statement": "Every feature of a map is drawn as one line with its points in order, closed if it is a polygon, in the color and dash of its type; stop signs are large markers and lanes are wider; a map without points gives an empty figure.", "quantifier": "all lists of map features with any types and points", "why_tests_cant": "Types, points and orders combine without bound; tests only check that a figure is returned.", "anchors": ["src/waymo_open_dataset/utils/plot_maps.py:plot_map_features", "src/waymo_open_dataset/utils/plot_maps.py:plot_map_points"]}
{"id": "C178", "title": "Animations of simulated agents show the boxes of the current step", "statement": "The rectangle of an object covers exactly its box. After a step is drawn the axis has one rectangle per object, that of its state in this step, whatever was drawn before; the map has every road edge and road line.", "quantifier": "all states, numbers of objects and histories of drawn steps", "why_tests_cant": "Numbers of patches and histories are unbounded; the loop removes from the list it iterates.", "anchors": ["src/waymo_open_dataset/utils/sim_agents/visualizations.py:get_bbox_patch", "src/waymo_open_dataset/utils/sim_agents/visualizations.py:get_animated_states", "src/waymo_open_dataset/utils/sim_agents/visualizations.py:add_map"]}
{"id": "C179", "title": "Submissions to the motion challenge become predictions without loss", "statement": "A submitted scenario is converted exactly if it has single or joint predictions, every trajectory has as many x as y coordinates and every joint trajectory is of two objects. The result then has its scenario id and exactly its trajectories, confidences and object ids, in order; different submissions give different results. A conversion of either kind is valid as a submission of its type, and an interactive submission is valid only with a single prediction.", "quantifier": "all scenarios, numbers of objects, trajectories and steps, and all earlier contents of the result", "why_tests_cant": "Submissions nest lists without bound; injectivity concerns all pairs.", "anchors": ["src/waymo_open_dataset/metrics/motion_metrics_utils.cc:ConvertChallengePredictions", "src/waymo_open_dataset/metrics/motion_metrics_utils.cc:ValidateChallengePredictions"]}
{"id": "C180", "title": "The share of correct key points counts key points within the threshold", "statement": "After any updates the result for a threshold is the weighted share, among key points labelled in both, of those predicted within the threshold times the scale of the key point and of the box; it is in [0, 1], grows with the threshold and does not depend on how objects are split into batches. A prediction that is left out counts as wrong.", "quantifier": "all histories of batches, objects, key points, boxes, weights and thresholds", "why_tests_cant": "Histories are unbounded and results are means of all of them.", "anchors": ["src/waymo_open_dataset/metrics/python/keypoint_metrics.py:PercentageOfCorrectKeypoints", "src/waymo_open_dataset/metrics/python/keypoint_metrics.py:_LayerDictWrapper"]}
{"id": "C181", "title": "Average precision at similarity thresholds is the mean of the precisions", "statement": "After any updates the precision at a threshold is the share of objects with a valid box whose similarity exceeds it, and the average precision is the mean of the precisions over the thresholds, in [0, 1] and independent of the split into batches; weights per object or per key point weigh the objects.", "quantifier": "all histories of batches, objects, key points, boxes, weights and thresholds", "why_tests_cant": "Histories are unbounded; tests use one batch.", "anchors": ["src/waymo_open_dataset/metrics/python/keypoint_metrics.py:AveragePrecisionAtOKS", "src/waymo_open_dataset/metrics/python/keypoint_metrics.py:_oks_object_weights"]}
{"id": "C182", "title": "Precision and recall of visibility count key points", "statement": "After any updates precision is the weight of the key points visible in both over that of those visible in the prediction, and recall over those visible in the ground truth; 0 if there are none. Swapping ground truth and prediction swaps them; splitting into batches changes nothing.", "quantifier": "all histories of batches, objects, visibilities and weights", "why_tests_cant": "Histories are unbounded.", "anchors": ["src/waymo_open_dataset/metrics/python/keypoint_metrics.py:KeypointVisibilityPrecision", "src/waymo_open_dataset/metrics/python/keypoint_metrics.py:KeypointVisibilityRecall"]}
{"id": "C183", "title": "The combined key point metric reports every metric for every subset under its own name", "statement": "An accepted configuration gives, for each subset, the mean error, the share of correct key points per threshold, the precision per threshold and the average precision, each computed from the key points of the subset alone with their scales and weights; no result replaces another. The default configurations are accepted, and their groups are the left and right of each joint, the head and all key points.", "quantifier": "all accepted configurations, names and orders of subsets, thresholds and histories of batches", "why_tests_cant": "Names are built from strings and formatted numbers of the user; subsets and histories are unbounded.", "anchors": ["src/waymo_open_dataset/metrics/python/keypoint_metrics.py:create_combined_metric", "src/waymo_open_dataset/metrics/python/keypoint_metrics.py:CombinedMetricsConfig", "src/waymo_open_dataset/metrics/python/keypoint_metrics.py:MetricForSubsets", "src/waymo_open_dataset/metrics/python/keypoint_metrics.py:CombinedMetric"]}
{"id": "C184", "title": "Pictures of segmentations show classes and instances", "statement": "The picture of a segmentation has the height and width of the labels; each pixel has the color of its class, and a pixel of an instance has that color with the green value moved by at most the given amount and cut off at 0 and 255. Instances of one class have different colors. A class outside the table is an error, and never shows the color of another class.", "quantifier": "all label pictures, tables, types of instance labels, instance numbers, primes and amounts", "why_tests_cant": "Instance numbers and pictures are unbounded; distinct colors are a property of all pairs.", "anchors": ["src/waymo_open_dataset/utils/camera_segmentation_utils.py:semantic_label_to_rgb", "src/waymo_open_dataset/utils/camera_segmentation_utils.py:panoptic_label_to_rgb", "src/waymo_open_dataset/utils/camera_segmentation_utils.py:_generate_color_map"]}
{"id": "C185", "title": "The frames loaded from a data set are labelled frames of one sequence", "statement": "Loading k frames gives the first k frames of the data set that have labels in their first image and belong to the first such sequence, with the name of that sequence; the rest of the data set is not read.", "quantifier": "all data sets and all k", "why_tests_cant": "Data sets are unbounded and interleave sequences in any order.", "anchors": ["src/waymo_open_dataset/utils/camera_segmentation_utils.py:load_frames_with_labels_from_dataset"]}
{"id": "C186", "title": "Tensors of poses describe the objects of a frame, key points and boxes alike", "statement": "Row i of the tensors made of a list of labels or predictions belongs to the i-th of those that have key points: its key points in the order asked for, with the default location and visibility 0 for missing ones, and its box in row i of the boxes. If no prediction has a box there are no boxes; without objects, or without key points, the tensors have no rows. Taking a subset of the types afterwards is the same as asking for it.", "quantifier": "all lists of labels and predictions, with and without boxes and key points, all orders of types", "why_tests_cant": "Which rows line up depends on all objects of the list; lists and orders are unbounded.", "anchors": ["src/waymo_open_dataset/utils/keypoint_data.py:create_pose_estimation_tensors", "src/waymo_open_dataset/utils/keypoint_data.py:stack_boxes", "src/waymo_open_dataset/utils/keypoint_data.py:stack_keypoints", "src/waymo_open_dataset/utils/keypoint_data.py:KeypointsTensors.subset"]}
{"id": "C187", "title": "The example submissions for images return all detections with a type, in pixels", "statement": "The example submissions for the image challenge return, for all outputs of their network, the detections whose class has a type, in order and with their scores, as boxes with center x, center y, length and width in pixels of the image.", "quantifier": "all images, outputs of the network and classes", "why_tests_cant": "Outputs of networks are arbitrary; sizes of images are unbounded.", "anchors": ["src/waymo_open_dataset/latency/examples/2d_challenge/tensorflow/wod_latency_submission/model.py:run_model", "src/waymo_open_dataset/latency/examples/2d_challenge/pytorch/wod_latency_submission/__init__.py:run_model"]}
{"id": "C188", "title": "The example for several frames gives the points of all frames in the newest one", "statement": "The combined point cloud has exactly the valid points of the three frames, each with its range, intensity and elongation and with coordinates in the frame of the newest pose that denote the same place of the world.", "quantifier": "all range images and rigid poses", "why_tests_cant": "Poses are real matrices and images have any size.", "anchors": ["src/waymo_open_dataset/latency/examples/tensorflow/multiframe/wod_latency_submission/model.py:transform_point_cloud", "src/waymo_open_dataset/latency/examples/tensorflow/multiframe/wod_latency_submission/model.py:run_model"]}
{"id": "C189", "title": "The example submissions for lidar give their network every valid point with its channels", "statement": "The PV-RCNN example gives its network exactly the points with positive range of the five lidars, as coordinates, intensity and elongation; the saved model gets each pixel in its place with normalized channels from which range and elongation can be recovered and in which intensities stay apart.", "quantifier": "all range images and all sets of fields", "why_tests_cant": "Images have any size and content.", "anchors": ["src/waymo_open_dataset/latency/examples/pytorch/from_saved_model/submission/lib/wod_latency_submission/__init__.py:_process_inputs", "src/waymo_open_dataset/latency/examples/tensorflow/from_saved_model/wod_latency_submission/model.py:Model.predict"]}
{"id": "C190", "title": "The outputs of the occupancy network are cut into way points without loss", "statement": "The way points made of an output of the network are consecutive groups of four of its channels: observed occupancy, occluded occupancy and two of flow. Joining the channels of all way points gives the output again.", "quantifier": "all outputs of the network", "why_tests_cant": "Grids and contents are arbitrary.", "anchors": ["tutorial/tutorial_occupancy_flow.ipynb:_get_pred_waypoint_logits", "tutorial/tutorial_occupancy_flow.ipynb:OccupancyFlowTaskConfig"]}
{"id": "C191", "title": "The occupancy loss of the tutorial is a mean cross entropy", "statement": "The occupancy losses are the means, over way points and cells, of the cross entropy of the truth and of the sigmoid of the logit. They are finite for every logit, not negative, and fall as a logit moves towards the truth.", "quantifier": "all logits, truths, way points and weights", "why_tests_cant": "Logits are real numbers; the formula that is evaluated differs from the definition.", "anchors": ["tutorial/tutorial_occupancy_flow.ipynb:_occupancy_flow_loss", "tutorial/tutorial_occupancy_flow.ipynb:_sigmoid_xe_loss"]}
{"id": "C192", "title": "The flow loss of the tutorial is the mean deviation where there is flow, of the batch being trained on", "statement": "The flow loss is the mean, over the cells whose true flow is not zero, of the absolute deviation of the prediction, and a training step uses the truth of its own batch.", "quantifier": "all predicted and true flows, all batches", "why_tests_cant": "Flow fields are real numbers; whether a global variable is used instead of an argument shows only with several batches.", "anchors": ["tutorial/tutorial_occupancy_flow.ipynb:_flow_loss", "tutorial/tutorial_occupancy_flow.ipynb:train_step"]}
{"id": "C193", "title": "The submission of occupancy and flow has one quantized prediction per test scenario", "statement": "For every scenario of a shard whose id is in the list of test scenarios, the submission has one prediction with its id and all way points in order; each probability is the sigmoid of the logit times 255, and each flow component the flow limited to -128 and 127, to the nearest integer.", "quantifier": "all shards, outputs of the network and lists of ids", "why_tests_cant": "Shards have any length and outputs are real numbers.", "anchors": ["tutorial/tutorial_occupancy_flow.ipynb:_add_waypoints_to_scenario_prediction", "tutorial/tutorial_occupancy_flow.ipynb:_make_submission_proto", "tutorial/tutorial_occupancy_flow.ipynb:_generate_predictions_for_one_test_shard", "tutorial/tutorial_occupancy_flow.ipynb:_apply_sigmoid_to_occupancy_logits"]}
{"id": "C194", "title": "The baseline of the sim agents tutorial extrapolates linearly with noise and gives 32 different futures", "statement": "Each agent moves from its last state by its last velocity in every step, plus noise; headings stay as they are but for noise. The 32 rollouts differ if the noise does.", "quantifier": "all scenarios, agents and noise", "why_tests_cant": "Scenarios have any number of agents and real states; noise is arbitrary.", "anchors": ["tutorial/tutorial_sim_agents.ipynb:simulate_with_extrapolation"]}
{"id": "C195", "title": "The packaging of the sim agents tutorial makes submissions that pass the validation", "statement": "The scene made of states and ids has one trajectory per id with the states of its row; states that do not match the ids raise. For every scenario, the packaged extrapolation passes the validation of the challenge.", "quantifier": "all scenarios, states, ids and noise", "why_tests_cant": "Scenarios and states have any size.", "anchors": ["tutorial/tutorial_sim_agents.ipynb:joint_scene_from_states", "tutorial/tutorial_sim_agents.ipynb:scenario_rollouts_from_states"]}
{"id": "C196", "title": "Stripping a scenario leaves only what may be used for generation", "statement": "After stripping, nothing is left of a scenario but ids, types, lengths, which objects exist at the current step, and the history of the autonomous vehicle.", "quantifier": "all scenarios and all positions of the autonomous vehicle in them", "why_tests_cant": "That something cannot be inferred is a statement about pairs of inputs.", "anchors": ["tutorial/tutorial_scenario_gen.ipynb:strip_logged_trajectories"]}
{"id": "C197", "title": "The scenario generation of the tutorial makes complete submissions around the autonomous vehicle", "statement": "The numbers of agents by type are those of the log; 32 rollouts place as many agents around the first state of the autonomous vehicle and move them with its velocity for 91 steps, each with the size of its type. The package passes the validation, and ids, types, states and sizes of all objects can be read from it.", "quantifier": "all scenarios and random displacements", "why_tests_cant": "Scenarios have any number of agents and real states.", "anchors": ["tutorial/tutorial_scenario_gen.ipynb:get_num_agents_to_generate", "tutorial/tutorial_scenario_gen.ipynb:_generate_trajectories", "tutorial/tutorial_scenario_gen.ipynb:_generate_sizes", "tutorial/tutorial_scenario_gen.ipynb:joint_scene_from_states", "tutorial/tutorial_scenario_gen.ipynb:scenario_rollouts_from_states"]}
{"id": "C198", "title": "The segmentation labels of points line up with the points", "statement": "Converting the labels of range images to labels of points gives one label per point, in the order of the points, for every laser and for both returns.", "quantifier": "all frames, range images and labels", "why_tests_cant": "Range images have any size and contents; lasers may lack labels.", "anchors": ["tutorial/tutorial_3d_semseg.ipynb:convert_range_image_to_point_cloud_labels"]}
{"id": "C199", "title": "Arrays are packed and labels submitted without loss", "statement": "Decompressing a compressed array gives the array; the index of the points of a range image names the pixel of every point; the labels painted at these pixels and the dummy submission are those of the points.", "quantifier": "all arrays, range images and labels", "why_tests_cant": "Arrays have any shape and contents.", "anchors": ["tutorial/tutorial_3d_semseg.ipynb:compress_array", "tutorial/tutorial_3d_semseg.ipynb:decompress_array", "tutorial/tutorial_3d_semseg.ipynb:get_range_image_point_indexing", "tutorial/tutorial_3d_semseg.ipynb:dummy_semseg_for_one_frame"]}
{"id": "C200", "title": "The frames chosen for a segmentation submission are those with labels, or those asked for", "statement": "For validation, the submission has a prediction for every frame of the data whose top laser has labels; for testing, for every frame in the list of frames.", "quantifier": "all data sets and lists of frames", "why_tests_cant": "Data sets have any length and lasers any order.", "anchors": ["tutorial/tutorial_3d_semseg.ipynb"]}
{"id": "C201", "title": "The front pictures of the driving tutorial and the way points in them are those of the cameras", "statement": "The three pictures shown are those of the front left, front and front right cameras with the calibrations of these cameras; every way point that is visible is drawn where it is projected, and no other.", "quantifier": "all frames, calibrations and way points", "why_tests_cant": "Frames list cameras in any order; way points are real.", "anchors": ["tutorial/tutorial_vision_based_e2e_driving.ipynb:return_front3_cameras", "tutorial/tutorial_vision_based_e2e_driving.ipynb:project_vehicle_to_image", "tutorial/tutorial_vision_based_e2e_driving.ipynb:draw_points_on_image"]}
{"id": "C202", "title": "The shards of the driving submission have every prediction once", "statement": "The predictions are cut into the given number of consecutive shards; joined, these are all predictions in order, and no shard has more than the rounded up quotient.", "quantifier": "all lists of predictions and numbers of shards", "why_tests_cant": "Lists have any length.", "anchors": ["tutorial/tutorial_vision_based_e2e_driving.ipynb"]}
{"id": "C203", "title": "Displacements, speeds and ratings of the driving tutorial are those of the frame asked about", "statement": "The average displacement of a trajectory is the mean distance of its way points to the truth; the dictionaries have one entry per frame; the initial speed is that of the frame given; rated trajectories are those with scores.", "quantifier": "all trajectories, frames and predictions", "why_tests_cant": "Trajectories have any length and real coordinates; whether a global variable is used instead of an argument shows only with several frames.", "anchors": ["tutorial/tutorial_vision_based_e2e_driving.ipynb:average_distance_per_step", "tutorial/tutorial_vision_based_e2e_driving.ipynb"]}
{"id": "C204", "title": "The camera-only submission has every predicted object once", "statement": "Every box with its class and score gives one object of its frame, and ids of one frame are different. The objects of all frames are dealt out in turn: shard j of n has the objects at positions j, j+n, j+2n, and so on; sizes of shards differ by one at most.", "quantifier": "all predictions, numbers of frames and numbers of shards", "why_tests_cant": "Numbers of boxes, frames and shards are not bounded.", "anchors": ["tutorial/tutorial_camera_only.ipynb:make_inference_objects", "tutorial/tutorial_camera_only.ipynb"]}
{"id": "C205", "title": "The evaluation of the camera-only tutorial compares objects of one frame", "statement": "The truths evaluated are those seen by a camera that have lidar points, with their camera-synced boxes and levels, unknown being level 2; an object is compared with the truths of its own frame only.", "quantifier": "all ground truths and predictions", "why_tests_cant": "Contexts and times are arbitrary.", "anchors": ["tutorial/tutorial_camera_only.ipynb:parse_metrics_objects_binary_files"]}
{"id": "C206", "title": "The boxes drawn into camera images are the parts of the projections that are visible", "statement": "The rectangle drawn for a label is the part within the image of the smallest rectangle around the projected corners, and is drawn if that part is not empty and the label has lidar points; the wireframe drawn is the part within the image of the projected edges.", "quantifier": "all labels, projections and image sizes", "why_tests_cant": "Projections are real numbers and may lie anywhere.", "anchors": ["tutorial/tutorial_camera_only.ipynb:draw_2d_box", "tutorial/tutorial_camera_only.ipynb:draw_3d_wireframe_box", "tutorial/tutorial_camera_only.ipynb:show_projected_camera_synced_boxes"]}
{"id": "C207", "title": "The panoptic labels shown are those of the sequence and camera they are shown for", "statement": "The frames collected are the first labelled frames of one sequence; labels are ordered from the left to the right camera; the label decoded for the front camera is that of the front camera; a row of the data frame is split into its labels.", "quantifier": "all data sets, sequences and data frames", "why_tests_cant": "Data sets have any length and cameras any order.", "anchors": ["tutorial/tutorial_2d_pvps.ipynb", "tutorial/tutorial_2d_pvps.ipynb:ungroup_row"]}
{"id": "C208", "title": "The panorama shows every label once, aligned at the bottom", "statement": "Pixel (y, x) of the label of camera j of frame k is at the row y below the top of the frame plus the padding, and at as many columns as the cameras before are wide; what is above a label is 0. The flat list of labels is cut into the frames that it was made of.", "quantifier": "all labels of at most 1280 rows, numbers of frames and widths", "why_tests_cant": "Sizes and contents are arbitrary.", "anchors": ["tutorial/tutorial_2d_pvps.ipynb:_pad_to_common_shape", "tutorial/tutorial_2d_pvps.ipynb"]}
{"id": "C209", "title": "The panoptic submission has one prediction per frame asked for and camera, and one file per context", "statement": "For every frame asked for there are five predictions, from the left to the right camera, with its time, camera and size. Contexts read from the list have the times of their lines. Every run leaves exactly one file per context.", "quantifier": "all data sets, lists of times, contexts and previous contents of the folder", "why_tests_cant": "Data sets and lists have any length.", "anchors": ["tutorial/tutorial_2d_pvps.ipynb:_load_dataset_for_one_test_shard", "tutorial/tutorial_2d_pvps.ipynb:_generate_predictions_for_one_test_shard", "tutorial/tutorial_2d_pvps.ipynb:_save_submission_to_file"]}
{"id": "C210", "title": "The pictures of the motion tutorial show every agent that is valid at the step shown", "statement": "There is a picture per step, with its title; it shows exactly the agents that are valid then, where they are, and the valid samples of the road; all positions are within the view, which is a square of at least 10 metres; the animation shows the pictures from the first to the last step.", "quantifier": "all agents, roads and numbers of steps", "why_tests_cant": "Numbers of agents and steps and positions are not bounded.", "anchors": ["tutorial/tutorial_motion.ipynb:get_viewport", "tutorial/tutorial_motion.ipynb:visualize_one_step", "tutorial/tutorial_motion.ipynb:visualize_all_agents_smooth", "tutorial/tutorial_motion.ipynb:create_animation"]}
{"id": "C211", "title": "The loss of the motion tutorial is the mean error of what is to be predicted", "statement": "The loss is the mean squared error of the valid future steps of the objects to predict, and zero exactly if all are predicted exactly; states that are not valid have no effect on what the network is given.", "quantifier": "all batches and predictions", "why_tests_cant": "Batches have any size, positions are real.", "anchors": ["tutorial/tutorial_motion.ipynb:_parse", "tutorial/tutorial_motion.ipynb:train_step"]}
{"id": "C212", "title": "The metrics shown after an epoch of the motion tutorial are those of the epoch", "statement": "The steps evaluated are the last of each interval; the metrics are those of every scenario of the batches of the epoch, once; the number of samples reported as seen is that of the samples seen.", "quantifier": "all data sets, numbers of epochs and trajectories", "why_tests_cant": "Data sets have any length and there may be many epochs.", "anchors": ["tutorial/tutorial_motion.ipynb:MotionMetrics", "tutorial/tutorial_motion.ipynb"]}
{"id": "C213", "title": "Key points are read from a frame and written to a submission without loss", "statement": "The tensors of a frame have one row per label with key points, in order, with the key point of each type and the box of the label. The key points written to a submission are those not missing, with their types and visibilities; reading them gives the tensors back. The submission has every detection of every frame, with its name and time.", "quantifier": "all frames, labels, tensors and detections", "why_tests_cant": "Numbers of labels and key points are not bounded.", "anchors": ["tutorial/tutorial_keypoints.ipynb:get_laser_data", "tutorial/tutorial_keypoints.ipynb:_create_all_keypoints_proto", "tutorial/tutorial_keypoints.ipynb:fake_pose_estimation"]}
{"id": "C214", "title": "Masks are drawn over the pixels they cover and mark the rays that meet the box", "statement": "Colouring a mask keeps every pixel outside of it and mixes the color into those inside, rounded down. Images are shown in a grid of any size from left to right. The mask of the rays given marks those that meet the box given.", "quantifier": "all images, masks, colors, opacities, grids, rays and boxes", "why_tests_cant": "Images have any size, opacities and rays are real.", "anchors": ["tutorial/tutorial_object_asset.ipynb:apply_color_mask", "tutorial/tutorial_object_asset.ipynb:grid_imshow", "tutorial/tutorial_object_asset.ipynb:_compute_ray_mask"]}
{"id": "C215", "title": "The points shown for an object asset are those of its pixels", "statement": "There is one point per pixel in both masks, in the order of the pixels, at the distance of the pixel along its ray and with its color. Refining the box moves every point from the labelled box to the vehicle and from there to the refined box; if both boxes are the same the points stay.", "quantifier": "all distances, rays, colors, masks, boxes and poses", "why_tests_cant": "Images have any size and poses are real.", "anchors": ["tutorial/tutorial_object_asset.ipynb"]}
{"id": "C216", "title": "Objects with key points are matched to the predictions by their boxes", "statement": "The C++ matcher of key point metrics pairs no object twice, pairs only boxes whose IoU is at least the threshold, and of all such pairings takes one with the largest total IoU; the pairs can be used to reorder the objects. Every configured method works, for boxes with and without heading.", "quantifier": "all boxes, thresholds and methods", "why_tests_cant": "Numbers and places of boxes are not bounded; the optimum is over all pairings.", "anchors": ["src/waymo_open_dataset/metrics/python/keypoint_metrics.py:CppMatcher", "src/waymo_open_dataset/metrics/python/keypoint_metrics.py:_box_to_tensor", "src/waymo_open_dataset/metrics/python/keypoint_metrics.py:create_matcher", "src/waymo_open_dataset/metrics/python/matcher.py:match"]}
{"id": "C217", "title": "The map tutorial shows every point of every frame at its place in the map", "statement": "The picture has the map of the first frame and, for every frame, each point of its lasers, moved to the world by the pose of the frame and to the map by its offset, colored by intensity; without frames there is no picture.", "quantifier": "all lists of frames, lasers, poses and offsets", "why_tests_cant": "Images have any size and poses are real.", "anchors": ["tutorial/tutorial_maps.ipynb:plot_point_clouds_with_maps"]}
{"id": "C218", "title": "The motion lidar tutorial extracts the points of both returns of all lasers of every frame", "statement": "For every frame there is one cloud with one row of features per point; it consists of the first and second return of each laser, in order, with the calibration of the laser and the pose of the frame. A frame without lasers has no points and does not affect others.", "quantifier": "all frames, lasers and calibrations", "why_tests_cant": "Numbers of frames, lasers and pixels are not bounded.", "anchors": ["tutorial/tutorial_womd_lidar.ipynb", "tutorial/tutorial_womd_lidar.ipynb:_get_laser_calib"]}
{"id": "C219", "title": "The pictures of the tutorial show the labels given and the channels of the range image", "statement": "A camera image is shown with one rectangle per given label of this camera, which covers the box. The pictures of a range image show range, intensity and elongation of each pixel, in proportion up to the limit, and pixels without return differ from others.", "quantifier": "all labels, layouts, cameras and range images", "why_tests_cant": "Numbers of labels and sizes of images are not bounded; numbers are real.", "anchors": ["tutorial/tutorial.ipynb:show_camera_image", "tutorial/tutorial.ipynb:show_range_image", "tutorial/tutorial.ipynb:plot_range_image_helper"]}
{"id": "C220", "title": "The tutorial shows the points that a camera sees, where it sees them, colored by distance", "statement": "The points drawn into the image of the first camera are exactly those that have a projection into it, in order, at this projection, with their distance from the vehicle. The color depends on the distance alone.", "quantifier": "all clouds, projections and cameras", "why_tests_cant": "Clouds have any size and points are real.", "anchors": ["tutorial/tutorial.ipynb:plot_points_on_image", "tutorial/tutorial.ipynb:rgba"]}
{"id": "C221", "title": "The tables of the second version's tutorial hold each image, object and frame once, with all that belongs to it", "statement": "Merging images with boxes gives one row per image, with all of its boxes. Grouping gives one row per object with its boxes over all frames. Merging associations, camera boxes, images, laser boxes and lasers gives one row per frame, with its lasers and its objects; the number of objects found is that of the objects in the frame. Filtering one camera and merging gives one row per box in an image of this camera.", "quantifier": "all tables of components, with any number of rows and other columns", "why_tests_cant": "Numbers of rows and combinations of keys are not bounded.", "anchors": ["tutorial/tutorial_v2.ipynb", "src/waymo_open_dataset/v2/dataframe_utils.py:merge"]}
{"id": "C222", "title": "Boxes whose headings differ by right angles have exact IoU and overlap", "statement": "For two boxes whose headings differ by any number of right angles, however they touch, share sides or contain each other, the intersection area, ComputeIoU and the overlap test of the motion metrics are those of their sets of points, in either order; in particular a box and the same rectangle with another heading have IoU 1.", "quantifier": "every two boxes with positive sides whose headings differ by a multiple of 90 degrees", "why_tests_cant": "Exactly the positions that random tests never meet; real positions, sizes and headings.", "anchors": ["src/waymo_open_dataset/metrics/iou.cc:ComputeIoU", "src/waymo_open_dataset/math/polygon2d.cc:ComputeIntersectionVertices", "src/waymo_open_dataset/math/polygon2d.cc:ComputeIntersectionArea", "src/waymo_open_dataset/metrics/motion_metrics.cc:ComputeOverlapRate"]}
{"id": "C223", "title": "A motion prediction counts in the bucket of the leading shape and the leading object type", "statement": "The mAP statistics of a prediction are in exactly one bucket, that of the shape of greatest documented priority among the objects of its first joint prediction, where the shape is that of the way from the state at the prediction time to the last valid state, right U-turns count as right turns, and different shapes have different buckets; if no object can be classified every bucket is empty. The object type of a joint prediction is the one of greatest documented priority. A predicted trajectory of one point has no box: the overlap test fails exactly if the box of another tested object straddles the origin.", "quantifier": "every configuration, set of tracks and prediction that is evaluated", "why_tests_cant": "The choice depends on the last valid state of every track of a joint prediction, at any length.", "anchors": ["src/waymo_open_dataset/metrics/motion_metrics.cc:ComputeMeanAveragePrecision", "src/waymo_open_dataset/metrics/motion_metrics.cc:GetTrajectoryTypePriority", "src/waymo_open_dataset/metrics/motion_metrics.cc:GetObjectTypePriority", "src/waymo_open_dataset/metrics/motion_metrics_utils.cc:ClassifyTrack", "src/waymo_open_dataset/metrics/motion_metrics_utils.cc:PredictionToPolygon"]}
{"id": "C224", "title": "The name of the breakdown an object is evaluated in describes the object", "statement": "For every object of known type and every breakdown generator the name of the breakdown it is counted in names its type and its band: the distance, the largest dimension and the speed lie in the documented interval, signs are the only objects in SIGN, an image label is in the breakdown of its camera, a laser label in that of its most visible camera or, without one, of the first camera whose axis is less than 25.2 degrees away, and in none from 115.2 degrees on. An object takes part in the matching of exactly its own breakdown, once; by speed of all breakdowns of its type; by camera of those of all cameras that are taken to see it.", "quantifier": "every object with real position, size and speed, every generator", "why_tests_cant": "Real-valued bands and bearings; names and shards are computed by different code.", "anchors": ["src/waymo_open_dataset/metrics/breakdown_generator.cc:Shard", "src/waymo_open_dataset/metrics/breakdown_generator.cc:ShardName", "src/waymo_open_dataset/metrics/breakdown_generator.cc:ShardsForMatching", "src/waymo_open_dataset/metrics/breakdown_generator.cc:EstimateCameraNamesByFov"]}
{"id": "C225", "title": "Camera segmentation labels decode alike from messages and from components", "statement": "For every list of camera segmentation labels the components extracted from them decode, with and without remapping to global and sequential ids and for every divisor, to the panoptic labels, tracked masks, coverages and divisor that the messages decode to. A component shows as many instances as the shortest of its three lists has entries.", "quantifier": "every list of labels of any sequences, every mapping, every decoder of images", "why_tests_cant": "The two formats take different paths through the iteration over the mappings and the test for an empty mapping; agreement must hold for all histories of sequences.", "anchors": ["src/waymo_open_dataset/utils/camera_segmentation_utils.py:_iterate_over_mapping", "src/waymo_open_dataset/utils/camera_segmentation_utils.py:decode_single_panoptic_label_from_proto", "src/waymo_open_dataset/utils/camera_segmentation_utils.py:decode_multi_frame_panoptic_labels_from_protos", "src/waymo_open_dataset/v2/perception/compat_v1/segmentation.py:CameraSegmentationLabelComponentExtractor"]}
{"id": "C226", "title": "The occupancy and flow grids read at a waypoint are those put there", "statement": "After any sequence of grids appended for any types of agents, reading waypoint k of the observed occupancy, the occluded occupancy or the flow gives for every type the k-th grid appended there (counted from the end for negative k), nothing for a type without grids, and raises exactly if a type has grids but not that many. Appending for one type or field changes no other. The ground truth of n waypoints is read back at every waypoint.", "quantifier": "every history of appended grids, every index, every number of waypoints", "why_tests_cant": "Histories and indices are unbounded; three near-identical methods and four fields invite copy errors that a test with one waypoint does not see.", "anchors": ["src/waymo_open_dataset/utils/occupancy_flow_grids.py:WaypointGrids", "src/waymo_open_dataset/utils/occupancy_flow_data.py:AgentGrids"]}
{"id": "C227", "title": "A configuration of the embedding codec that is saved is loaded as it was", "statement": "CodecConfig.to_json succeeds exactly if json can encode every number of the configuration, and from_json of the text gives the configuration with the same numbers in the same fields and order, for lists of any number and length, including empty ones. Different configurations have different texts. A text is loaded only if it has all the fields with lists of numbers, and an integer as tile size.", "quantifier": "every configuration, every number of components and sizes of vectors, every text", "why_tests_cant": "Sizes are unbounded; a test saves one configuration with vectors of equal lengths.", "anchors": ["src/waymo_open_dataset/utils/compression/pca_codec.py:CodecConfig.to_json", "src/waymo_open_dataset/utils/compression/pca_codec.py:CodecConfig.from_json"]}
{"id": "C228", "title": "Fitted parameters of the embedding codec act like the fitted pipeline", "statement": "For every set of samples, fit_pca returns parameters whose transformation and inverse transformation agree with those of the scikit-learn pipeline it returns, on every vector. The deviations are positive, also for constant features, so that no transformation divides by zero. Each eigenvalue is the variance of its coefficient over the samples; what the components lose on the samples is the total variance less the eigenvalues kept; and as many components as features lose nothing, so that the codec with these parameters is exact up to quantisation.", "quantifier": "every set of samples, every vector, every number of features and components", "why_tests_cant": "The agreement depends on a mean that is dropped being zero for every data set; a test compares one random data set.", "anchors": ["src/waymo_open_dataset/utils/compression/pca_codec.py:fit_pca", "src/waymo_open_dataset/utils/compression/pca_codec.py:Pca"]}
