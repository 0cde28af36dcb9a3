while kill -0 24419 2>/dev/null; do sleep 20; done
cd /tmp/work; python3 seed.py mut15.json > seed15.out 2>&1
