PROPS=[
("Benchmark decorators do not change what they measure",
 "A function decorated with timer, memory_monitor or average_timer(repeat) returns the same value, raises the same exception and has the same effect as the undecorated function.",
 "all functions (with any effects), all states, all repeat counts, all exceptions",
 "Tests decorate a few pure functions; the claim is about every function, effect, exception and repeat count.",
 ["classicML/benchmarks/wrapper_utils.py::timer","classicML/benchmarks/wrapper_utils.py::average_timer","classicML/benchmarks/wrapper_utils.py::memory_monitor"]),
("Benchmark decorators report the times that passed",
 "The line logged by timer states the duration of the call and average_timer states mean, standard deviation, longest and shortest duration of its calls, each in a unit that suits its size and is the unit printed.",
 "all durations, all sequences of durations",
 "Durations are not under the control of a test; unit changes happen at boundaries that a run does not hit.",
 ["classicML/benchmarks/wrapper_utils.py::_format_and_display_the_time_spent","classicML/benchmarks/wrapper_utils.py::average_timer","classicML/benchmarks/wrapper_utils.py::timer"]),
]
PLAN={
"C151":"Model.Bench: a call is a function from the state of the world to outcome and state; induction over the repetitions.",
"C152":"Model.Bench: the report as a function of the clock readings; case analysis on the two thresholds, real arithmetic.",
}
STATUS={
"C151":("partial","Proved for timer and memory_monitor (every function, effect and exception), and for average_timer on functions without effect. Fails otherwise: average_timer repeats effects (C151_effects_repeated), and with repeat <= 0 never calls the function and raises ValueError (C151_never_called). C151_average_timer_partial says exactly what average_timer does."),
"C152":("proved","Numbers before the rounding for printing; exact arithmetic."),
}
VIOL={
"C151":"average_timer repeats the effects of the function `repeat` times and, for repeat <= 0, does not call it at all but raises ValueError (np.min of an empty array).",
}
